import Verif.Typed.Steps

/-! # Sets by their class, objects and sources -/
namespace Verif.Typed
open Verif.Macro (Name)
open Verif.Compile Verif.Classes Verif.Atom

variable {Γ : Ctx} {e : Env} {U : Name → Iter → Prop} {w v : Bool} {s s' : St} {x : Syn} {f wi : Nat} {K : Want}
  {l : Option Name} {c : Class} {i : Iter} {u : Use} {elems : List Syn}

theorem step_setC (L : Level Γ e f) (wi : Nat) (hc : e.classes c.name = some c) (hu : UseOk U s i u) (hP : Pre Γ w v s)
    (hl : ∀ n, l = some n → Γ.names (n, false)) (hF : Γ.classes = e.classes)
    (hN : NiceAll Γ e.classes U false (elemAt (some (.set (some (c, i))))) 0 elems) :
    OkB Γ U w (Post Γ v (some (.set (some (c, i)))) (.set l elems)) s (setC (f + 1) e s wi w c u (.set l elems)) := by
  have post : ∀ {s1 : St}, (s1.noArity = false ∧ elems ≠ [] ∧ (i = .cls → elems.length = arity c) ∧
      ∀ (k : Nat) x, elems[k]? = some x → Fits Γ false v (elemWant e.classes c i k) x) →
      Post Γ v (some (.set (some (c, i)))) (.set l elems) s1 := by
    intro s1 h
    exact .inr ⟨h.1, .setC h.2.1 h.2.2.1 (by rw [hF]; exact h.2.2.2)⟩
  have main : ∀ s1, Keep Γ U s s1 → Pre Γ w v s1 → s1.lvl = s.lvl → OkB Γ U w (Post Γ v (some (.set (some (c, i)))) (.set l elems)) s
      (if w then
        if getDescriptor c.atom = 0xC2 ∧ useOf s1 u ≠ .set then
          setElems f e { app { s1 with code := Words.put s1.code wi (iPointer (BitVec.ofNat 16 s1.ext)) } [c.atom] with
            ext := (app { s1 with code := Words.put s1.code wi (iPointer (BitVec.ofNat 16 s1.ext)) } [c.atom]).ext + arity c } (s1.ext + 1) w c u elems
        else
          match setCount f e { s1 with code := Words.put s1.code wi (iPointer (BitVec.ofNat 16 s1.ext)) } elems with
          | none => .err
          | some (n, s') =>
            setElems f e { app (restore s1 s') [Atom.set (BitVec.ofNat 8 n)] with ext := (app (restore s1 s') [Atom.set (BitVec.ofNat 8 n)]).ext + n % 256 } (s1.ext + 1) w c u elems
      else setElems f e s1 0 w c u elems) := by
    intro s1 k1 P1 l1
    have u1 := hu.keep k1
    refine OkB.after k1 (fun _ => l1) ?_
    cases w with
    | false =>
      simp only [Bool.false_eq_true, if_false]
      exact (L.setElems 0 hc u1 P1 hN).imp fun _ hw => by cases hw
    | true =>
      simp only [if_true]
      have hp := put_like s1 (Words.put s1.code wi (iPointer (BitVec.ofNat 16 s1.ext)))
      split
      · have h1 := hp.trans (app_like _ [c.atom])
        have h2 : Like s1 { app { s1 with code := Words.put s1.code wi (iPointer (BitVec.ofNat 16 s1.ext)) } [c.atom] with
            ext := (app { s1 with code := Words.put s1.code wi (iPointer (BitVec.ofNat 16 s1.ext)) } [c.atom]).ext + arity c } :=
          ⟨h1.hlp, h1.locals, h1.lvl, h1.noArity, h1.useAs⟩
        have k2 : Keep Γ U s1 _ := h2.keep P1.known
        exact OkB.after k2 (fun _ => h2.lvl) ((L.setElems _ hc (u1.keep k2) (h2.pre P1) hN).imp fun _ _ h => post h)
      · cases hcn : setCount f e { s1 with code := Words.put s1.code wi (iPointer (BitVec.ofNat 16 s1.ext)) } elems with
        | none => trivial
        | some q =>
          obtain ⟨n, s'⟩ := q
          have hk := (hp.keep P1.known).trans (L.count (hp.known P1.known) (hN.any 0) hcn)
          obtain ⟨P2, k2, l2⟩ := restore_pre (x := (app (restore s1 s') [Atom.set (BitVec.ofNat 8 n)]).ext + n % 256) P1 hk rfl
          exact OkB.after k2 (fun _ => l2) ((L.setElems _ hc (u1.keep k2) P2 hN).imp fun _ _ h => post h)
  obtain ⟨s1, h1, h2, h3, h4⟩ := label_step (U := U) (i := wi) (t := c.type) hP hl
  have := main s1 h2 h3 h4
  subst h1
  simp only [setC]
  cases l with
  | none => exact this
  | some l => exact this

theorem step_setElems (L : Level Γ e f) (wi : Nat) (hc : e.classes c.name = some c) (hu : UseOk U s i u) (hP : Pre Γ w v s)
    (hN : NiceAll Γ e.classes U false (elemAt (some (.set (some (c, i))))) 0 elems) :
    OkB Γ U w (fun s' => s'.noArity = false ∧ elems ≠ [] ∧ (i = .cls → elems.length = arity c) ∧
      ∀ (k : Nat) x, elems[k]? = some x → Fits Γ false v (elemWant e.classes c i k) x) s (setElems (f + 1) e s wi w c u elems) := by
  have fin : ∀ s1, Keep Γ U s s1 → Pre Γ w v s1 → s1.lvl = s.lvl →
      OkB Γ U w (fun s' => s'.noArity = false ∧ elems ≠ [] ∧ (i = .cls → elems.length = arity c) ∧
        ∀ (k : Nat) x, elems[k]? = some x → Fits Γ false v (elemWant e.classes c i k) x) s
        (clsElems f e s1 wi w c u (if i = .cls then arity c else 0xFFFF) 0 elems) := by
    intro s1 k1 P1 l1
    refine OkB.after k1 (fun _ => l1) ((L.clsElems wi hc (hu.keep k1) P1 hN).imp fun _ _ h => ?_)
    simp only [Nat.zero_add] at h
    exact ⟨h.1, fun h0 => h.2.1 h0 rfl, h.2.2⟩
  simp only [setElems, hu.eq]
  by_cases hi : i = .cls
  · rw [if_pos hi]
    rw [if_pos hi] at fin
    cases w with
    | true =>
      have hl := fill_like s wi (arity c)
      exact fin _ (hl.keep hP.known) (hl.pre hP) hl.lvl
    | false => exact fin s (.refl hP.known) hP rfl
  · rw [if_neg hi]
    rw [if_neg hi] at fin
    exact fin s (.refl hP.known) hP rfl

theorem step_clsElems {n : Nat} (F : Fine Γ e) (L : Level Γ e f) (wi : Nat) (hc : e.classes c.name = some c) (hu : UseOk U s i u)
    (hP : Pre Γ w v s) (hN : NiceAll Γ e.classes U false (elemAt (some (.set (some (c, i))))) n elems) :
    OkB Γ U w (fun s' => s'.noArity = false ∧ (elems = [] → n ≠ 0) ∧ (i = .cls → n + elems.length = arity c) ∧
      ∀ (k : Nat) x, elems[k]? = some x → Fits Γ false v (elemWant e.classes c i (n + k)) x) s
      (clsElems (f + 1) e s wi w c u (if i = .cls then arity c else 0xFFFF) n elems) := by
  have hlt : arity c < 256 := (getAtomCount c.atom).isLt
  cases elems with
  | nil =>
    simp only [clsElems]
    by_cases h0 : n = 0
    · rw [if_pos h0]; exact okB_fail hP.known
    · rw [if_neg h0]
      by_cases h1 : n = (if i = .cls then arity c else 0xFFFF) ∨ (if i = .cls then arity c else 0xFFFF) = 0xFFFF
      · rw [if_pos h1]
        refine ⟨.refl hP.known, fun hw => ⟨rfl, hP.noArity hw, fun _ => h0, fun hi => ?_, by simp⟩⟩
        rw [if_pos hi] at h1
        simp only [List.length_nil, Nat.add_zero]
        omega
      · rw [if_neg h1]
        by_cases h2 : s.noArity = true
        · rw [if_pos h2]
          cases w with
          | true => rw [hP.noArity rfl] at h2; cases h2
          | false => exact ⟨⟨⟨hP.known.hlp, hP.known.locals⟩, fun _ _ _ h => h⟩, by simp⟩
        · rw [if_neg h2]; exact okB_fail hP.known
  | cons x r =>
    simp only [clsElems]
    by_cases h1 : n ≥ (if i = .cls then arity c else 0xFFFF)
    · rw [if_pos h1]; exact okB_fail hP.known
    · rw [if_neg h1]
      have hx := hN.head
      have fin : ∀ o, OkW Γ U w (Post Γ v (elemWant e.classes c i n) x) s o →
          OkB Γ U w (fun s' => s'.noArity = false ∧ (x :: r = [] → n ≠ 0) ∧ (i = .cls → n + (x :: r).length = arity c) ∧
            ∀ (k : Nat) y, (x :: r)[k]? = some y → Fits Γ false v (elemWant e.classes c i (n + k)) y) s
            (match o with
            | .yes s => clsElems f e s wi w c u (if i = .cls then arity c else 0xFFFF) (n + 1) r
            | .no s => fail w s
            | .err => .err) := by
        intro o hM
        cases o with
        | err => trivial
        | no s1 =>
          cases w with
          | true => trivial
          | false => exact ⟨hM, rfl⟩
        | yes s1 =>
          have h5 := fun hw => (hM.2 hw).2.fits (not_tail hN)
          have P1 : Pre Γ w v s1 := ⟨hM.1.known, fun hw => (h5 hw).1, fun hw => by rw [(hM.2 hw).1]; exact hP.lvl hw⟩
          refine OkB.after hM.1 (fun hw => (hM.2 hw).1) ((L.clsElems wi hc (hu.keep hM.1) P1 hN.rest).imp fun s' hw h' => ?_)
          refine ⟨h'.1, by simp, fun hi => ?_, fun k y hy => ?_⟩
          · have := h'.2.2.1 hi
            simp only [List.length_cons]
            omega
          · cases k with
            | zero => simp only [List.getElem?_cons_zero, Option.some.injEq] at hy; subst hy; exact (h5 hw).2
            | succ k =>
              rw [show n + (k + 1) = n + 1 + k by omega]
              exact h'.2.2.2 k y (by simpa using hy)
      rw [hu.eq]
      cases i with
      | expression => exact fin _ (L.expr (wi + n) true (some c) (fun d hd => by cases hd; exact hc) hP hx).weak
      | set =>
        by_cases hs : ∃ l elems, x = .set l elems
        · obtain ⟨l, elems, rfl⟩ := hs
          exact fin _ (L.setBy (i := .cls) (u := .own .cls) (wi + n) true hc rfl hP (label_bound hx) (hx.kids)).weak
        · exact fin _ (setBy_leaf F (wi + n) true (fun l elems h => hs ⟨l, elems, h⟩) hP hx.names).weak
      | dcls => exact fin _ (readClass_ok F hP hx.names (.inr rfl) (wi + n)).weak
      | cls =>
        cases hm : c.members[n]? with
        | none => trivial
        | some m =>
          refine fin (readMember f e s (wi + n) w m x) ?_
          simp only [elemWant, argWant, hm, Option.bind_some]
          have : elemAt (some (.set (some (c, .cls)))) n = .mem m := by simp [elemAt, argAt, hm]
          rw [this] at hx
          exact L.mem (wi + n) hP hx

/-- At every depth. -/
theorem level (F : Fine Γ e) : ∀ f, Level Γ e f
  | 0 => level_zero
  | f + 1 =>
    have L := level F f
    { any := fun wi => step_any F L wi
      lit := fun wi => step_lit F L wi
      expr := fun wi => step_expr F L wi
      set := fun wi => step_set F L wi
      setBy := fun wi => step_setBy F L wi
      mem := fun wi => step_mem F L wi
      exprT := fun wi => step_exprT F L wi
      exprC := fun wi => step_exprC F L wi
      body := fun wi => step_body F L wi
      tail := fun wi => step_tail L wi
      args := fun wi => step_args F L wi
      setU := fun wi => step_setU L wi
      anyElems := fun wi => step_anyElems L wi
      count := step_count L
      setC := fun wi hc hu hP hl hN => step_setC L wi hc hu hP hl F.classes hN
      setElems := fun wi => step_setElems L wi
      clsElems := fun wi => step_clsElems F L wi }

end Verif.Typed
