import Verif.Typed.Sets
import Verif.Compile.Objects

/-! # Objects, views and sources -/
namespace Verif.Typed
open Verif.Macro (Name)
open Verif.Compile Verif.Classes Verif.Atom

variable {W : World} {Γ : Ctx} {e : Env} {s : St}

theorem namesAll_append (a b : List Syn) : namesAll (a ++ b) = namesAll a ++ namesAll b := by
  induction a with
  | nil => rfl
  | cons x r ih => simp [namesAll, ih]

theorem names_mem {q : Name × Bool} : ∀ {l : List Syn} {x : Syn}, x ∈ l → q ∈ names x → q ∈ namesAll l
  | y :: r, x, hx, hq => by
    simp only [namesAll, List.mem_append]
    rcases List.mem_cons.mp hx with h | h
    · subst h; exact .inl hq
    · exact .inr (names_mem h hq)

/-- No way of using classes is left to be kept. -/
def noUse : Name → Iter → Prop := fun _ _ => False

theorem fit_none {us : List (Name × Iter)} : Fit noUse us := fun _ _ _ h => h.elim

/-- All views. -/
theorem views_fit {v : Class} (F : Fine Γ e) (hv : e.classes v.name = some v) (f : Nat) :
    ∀ (xs : List Syn) (s s' : St) (vs : List View), Pre Γ true false s → (∀ x ∈ xs, Tidy e.classes (.se v) x ∧ ∀ q ∈ names x, Γ.names q) →
      readViews f e v s xs = some (vs, s') → Pre Γ true false s' ∧ s'.lvl = s.lvl ∧
        ∀ (k : Nat) x, xs[k]? = some x → Fits Γ false false (some (.set (some (v, .cls)))) x
  | [], s, s', vs, hP, _, h => by
    simp only [readViews, Option.some.injEq, Prod.mk.injEq] at h
    rw [← h.2]
    exact ⟨hP, rfl, by simp⟩
  | x :: r, s, s', vs, hP, hx, h => by
    have hP0 : Pre Γ true false { s with code := [], refs := [], ext := 0 } :=
      ⟨⟨hP.known.hlp, hP.known.locals⟩, hP.noArity, hP.lvl⟩
    have h1 := hx x List.mem_cons_self
    have hn : x ≠ .tail := by rintro rfl; exact h1.1
    have hN : Nice Γ e.classes noUse (.se v) x := ⟨h1.2, .inr h1.1, fit_none⟩
    have hO : Ok Γ noUse true (Post Γ false (some (.set (some (v, .cls)))) x) { s with code := [], refs := [], ext := 0 }
        (readSet f e { s with code := [], refs := [], ext := 0 } 0 true true (some (v, .own .cls)) x) := by
      by_cases hs : ∃ l elems, x = .set l elems
      · obtain ⟨l, elems, rfl⟩ := hs
        exact (level F f).setBy 0 true hv rfl hP0 (label_bound hN) hN.kids
      · cases f with
        | zero => simp [readSet, Ok]
        | succ f => exact setBy_leaf F 0 true (fun l elems h => hs ⟨l, elems, h⟩) hP0 h1.2
    simp only [readViews] at h
    cases hr : readSet f e { s with code := [], refs := [], ext := 0 } 0 true true (some (v, .own .cls)) x with
    | no s1 => rw [hr] at h; cases h
    | err => rw [hr] at h; cases h
    | yes s1 =>
      rw [hr] at h hO
      obtain ⟨k1, hO⟩ := hO
      obtain ⟨l1, hO⟩ := hO rfl
      obtain ⟨a1, hO⟩ := hO.fits hn
      have l1 : s1.lvl = s.lvl := l1
      have hP1 : Pre Γ true false s1 := ⟨k1.known, fun _ => a1, fun hw => by rw [l1]; exact hP.lvl hw⟩
      simp only [Option.map_eq_some_iff] at h
      obtain ⟨p, hp, hq⟩ := h
      obtain ⟨b1, b2, b3⟩ := views_fit F hv f r s1 p.2 p.1 hP1 (fun y hy => hx y (List.mem_cons_of_mem _ hy)) hp
      simp only [Prod.mk.injEq] at hq
      rw [← hq.2]
      refine ⟨b1, b2.trans l1, fun k y hk => ?_⟩
      cases k with
      | zero => simp only [List.getElem?_cons_zero, Option.some.injEq] at hk; subst hk; exact hO
      | succ k => exact b3 k y (by simpa using hk)

theorem viewsOf_class {classes : Name → Option Class} {c v : Class} (h : viewsOf classes c = some v) : ∃ x, classes x = some v := by
  unfold viewsOf at h
  split at h
  · exact ⟨_, h⟩
  · split at h
    · exact ⟨_, h⟩
    · exact ⟨_, h⟩

/-- The labels that are known to the compiler are those of the objects before. -/
def Same (g : Name → Option (Nat × Ret)) (objs : Name → Option Class) : Prop :=
  (∀ x o t, g x = some (o, t) → t = .any ∧ ∃ c, objs x = some c) ∧ ∀ x, g x = none → objs x = none

theorem Same.label {g : Name → Option (Nat × Ret)} {objs : Name → Option Class} {c : Class} {o : Source} {n : Nat} (h : Same g objs)
    (hc : W.sys o.head = some c) : Same (label W.sys g n o) (labelled objs c o) := by
  cases hl : o.label with
  | none => simpa only [Compile.label, labelled, hl] using h
  | some l =>
    simp only [Same, Compile.label, labelled, hl, hc]
    constructor
    · intro x k t hx
      by_cases hxl : x = l
      · rw [if_pos hxl] at hx ⊢
        simp only [Option.some.injEq, Prod.mk.injEq] at hx
        exact ⟨by rw [← hx.2]; exact (W.sub _ _ hc).2, c, rfl⟩
      · rw [if_neg hxl] at hx ⊢; exact h.1 x k t hx
    · intro x hx
      by_cases hxl : x = l
      · rw [if_pos hxl] at hx; cases hx
      · rw [if_neg hxl] at hx ⊢; exact h.2 x hx

/-- All objects. -/
theorem source_fits (hN : Named W) (f : Nat) : ∀ (src : List Source) (g : Name → Option (Nat × Ret)) (objs : Name → Option Class)
    (n : Nat) (s : St) (out : List Obj), Same g objs → s.lvl = 0 → s.noArity = false → TidySrc W src →
      compileFrom f W.classes W.sys W.allow g n s src = some out → SrcFits false W objs src
  | [], _, _, _, _, _, _, _, _, _, _ => .nil
  | o :: r, g, objs, n, s, out, hS, hl0, ha0, hT, h => by
    simp only [compileFrom] at h
    cases ho : readObject f W.classes W.sys W.allow g n s o with
    | none => rw [ho] at h; cases h
    | some p =>
      obtain ⟨b, g1, s1⟩ := p
      rw [ho] at h
      simp only [Option.map_eq_some_iff] at h
      obtain ⟨out1, h, _⟩ := h
      have ⟨c, hc⟩ : ∃ c, W.sys o.head = some c := by
        cases hc : W.sys o.head with
        | none => simp only [readObject, hc] at ho; cases ho
        | some c => exact ⟨c, rfl⟩
      have hl : ∀ l, o.label = some l → g l = none := by
        intro l hl
        cases hg : g l with
        | none => rfl
        | some q => simp [readObject, hc, hl, hg] at ho
      have h0 : arity c ≠ 0 := by
        intro h0
        simp only [readObject, hc, h0, if_true] at ho
        split at ho <;> cases ho
      rw [readObject_eq hc hl h0] at ho
      have hS1 := hS.label (n := n) hc
      let e : Env := ⟨W.classes, W.sys, label W.sys g n o, c, c.name = "mdl".toList ∨ c.name = "cst".toList, W.allow⟩
      have F : Fine (inside W (labelled objs c o) c o) e := by
        refine ⟨rfl, fun h c hc => (W.sub h c hc).1, hN, hS1.1, (W.sub _ _ hc).2, ?_, rfl⟩
        simp [inside, isHlp, e]
      have hP : Pre (inside W (labelled objs c o) c o) true false
          { s with code := [c.atom], refs := [], ext := arity c + 1, hlp := [], locals := fun _ => none } :=
        ⟨⟨by simp, by simp⟩, fun _ => ha0, fun _ h => by simp only [hl0] at h; omega⟩
      have hT1 := hT o List.mem_cons_self
      have hA : NiceAll (inside W (labelled objs c o) c o) e.classes noUse true (argAt (some c)) 0 o.args := by
        refine ⟨fun q hq => ?_, ?_, fit_none⟩
        · simp only [inside, whole, namesAll_append, List.mem_append]; exact .inl hq
        · have := hT1.1
          simp only [Tidy, (W.sub _ _ hc).1] at this
          exact this
      have hB := (level F f).tail 1 hP hA
      change (match exprTail f e { s with code := [c.atom], refs := [], ext := arity c + 1, hlp := [], locals := fun _ => none } 1 true c o.args with
        | .yes s1 =>
          match o.views with
          | none => some (⟨s1.code, s1.refs, []⟩, label W.sys g n o, s1)
          | some vs =>
            if vs.isEmpty then none
            else
              match viewClass e with
              | none => none
              | some v => (readViews f { e with cur := v } v s1 vs).map fun p => ((⟨s1.code, s1.refs, p.1⟩ : Obj), label W.sys g n o, p.2)
        | _ => none) = some (b, g1, s1) at ho
      cases hx : exprTail f e { s with code := [c.atom], refs := [], ext := arity c + 1, hlp := [], locals := fun _ => none } 1 true c o.args with
      | no t => rw [hx] at ho; cases ho
      | err => rw [hx] at ho; cases ho
      | yes t =>
        rw [hx] at ho hB
        obtain ⟨k1, hB⟩ := hB
        obtain ⟨l1, a1, hR⟩ := hB rfl
        have l1 : t.lvl = 0 := Eq.trans l1 hl0
        have hP1 : Pre (inside W (labelled objs c o) c o) true false t := ⟨k1.known, fun _ => a1, fun _ h => by omega⟩
        have hFits : Fits (inside W (labelled objs c o) c o) false false (some (.expr none)) (.expr none o.head o.args) :=
          hR.fits F (W.sub _ _ hc).1 trivial (fun _ h => by cases h)
        have hr : TidySrc W r := fun o ho => hT o (List.mem_cons_of_mem _ ho)
        have hl' : ∀ l, o.label = some l → objs l = none := fun l h => hS.2 l (hl l h)
        cases hv : o.views with
        | none =>
          rw [hv] at ho
          simp only [Option.some.injEq, Prod.mk.injEq] at ho
          obtain ⟨-, rfl, rfl⟩ := ho
          exact .cons hc hl' hFits (fun xs hxs => by rw [hv] at hxs; cases hxs)
            (source_fits hN f r _ _ _ _ _ hS1 l1 a1 hr h)
        | some xs =>
          rw [hv] at ho
          simp only at ho
          split at ho
          · cases ho
          · next hne =>
            have hview : viewClass e = viewsOf W.classes c := by
              simp only [viewClass, viewsOf, e, List.mem_cons, List.not_mem_nil, or_false]
            rw [hview] at ho
            cases hvc : viewsOf W.classes c with
            | none => rw [hvc] at ho; cases ho
            | some v =>
              rw [hvc] at ho
              simp only [Option.map_eq_some_iff] at ho
              obtain ⟨p, hp, hq⟩ := ho
              simp only [Prod.mk.injEq] at hq
              obtain ⟨-, rfl, rfl⟩ := hq
              have F2 : Fine (inside W (labelled objs c o) c o) { e with cur := v } :=
                ⟨rfl, F.sub, hN, hS1.1, W.view _ _ hvc, F.hlp, rfl⟩
              obtain ⟨x, hx⟩ := viewsOf_class hvc
              have hvn : W.classes v.name = some v := by rw [hN x v hx]; exact hx
              obtain ⟨b1, b2, b3⟩ := views_fit (v := v) F2 hvn f xs t p.2 p.1 hP1 (fun x hx => by
                refine ⟨hT1.2 xs hv x hx c v hc hvc, fun q hq => ?_⟩
                simp only [inside, whole, hv, Option.getD_some, namesAll_append, List.mem_append]
                exact .inr (names_mem hx hq)) hp
              refine .cons hc hl' hFits (fun ys hys => ?_) (source_fits hN f r _ _ _ _ _ hS1 (b2.trans l1) (b1.noArity rfl) hr h)
              rw [hv] at hys
              cases hys
              exact ⟨by rintro rfl; simp at hne, v, hvc, b3⟩

end Verif.Typed
