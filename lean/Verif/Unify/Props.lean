import Verif.Unify.Main
/-!
# C81: matching finds the values that make the pattern the object
-/
namespace Verif.Unify
open Verif.Atom Verif.Words Verif.Values
open Verif.Instance (Ev)
open Verif.BindMap (BMap Slot)
open Verif.Match (Obj Heap Opc Tol isWild isVar isIPtr isRPtr Named SameAtom)

/-- Matching object `a` with pattern `b` ends, keeping all bindings of `m`. If it succeeds, `a` is `b` with the
values found, within the tolerances (`D` compares the words of texts and durations). If there are values,
extending those of `m`, that make `b` exactly `a`, it succeeds, and binds nothing but these values. -/
def Unified (h : Heap) (oc : Opc) (t : Tol) (ti : Word) (D : Word → Word → Prop) (m : BMap) (a b : Nat) : Prop :=
  ∃ r m', Ev (fun g => matchObject h oc t ti g m a b = some (r, m')) ∧ Good h oc m' ∧ Extends m m' ∧
    (r = true → Fits h oc t D m' (.obj a b)) ∧
    ∀ ms, Within m ms → Is h oc ms (.obj a b) → r = true ∧ Within m' ms

/-- C81: for all ground objects, patterns and maps. -/
def C81_full : Prop :=
  ∀ (h : Heap) (oc : Opc) (t : Tol) (ti : Word) (m : BMap) (a b : Nat), 0 < t.time → count ti = 2 →
    Ground h oc (.obj a) → Pattern h oc ti m.slots.length (.obj b) → Good h oc m →
    Unified h oc t ti Eq m a b

/-- C81, partial: when each variable meets references only or no references, the structures met by variables
hold no references, and texts and durations are compared as numbers are. -/
theorem C81_unified_partial (h : Heap) (oc : Opc) (t : Tol) (ti : Word) (m : BMap) (a b : Nat) (ht : 0 < t.time)
    (hti : count ti = 2) (hg : Ground h oc (.obj a)) (hp : Pattern h oc ti m.slots.length (.obj b))
    (hm : Good h oc m) (τ : Nat → Prop) (hτ : Typed τ m) (hs : Safe h oc τ (.obj a b)) :
    Unified h oc t ti (SameAtom t) m a b := by
  obtain ⟨r, m', hev, ho⟩ := all_ends ht hti (τ := τ) (n := m.slots.length) hg b hp hs m ⟨rfl, hm, hτ⟩
  exact ⟨r, m', hev, ho.map.good, ho.ext, ho.fits, ho.is⟩

/-! ## Where it does not hold -/

/-- A class with two members and a salience threshold. -/
def rel : Word := object 40 3

/-- 1 is an entity; 0 is `(rel e 1.0)`, 2 the pattern `(rel v v)`; 3 is `(rel e 1.1)`; 4 is `(rel [e] [e])`;
5 is `(rel e 200ms)` and 6 the same with 100ms. -/
def oddHeap : Heap := fun o => [
  { code := [rel, rPointer 0, float 0x3F800000, float 0], refs := [1] },
  { code := [object 1 1, float 0] },
  { code := [rel, vlPointer 0, vlPointer 0, float 0] },
  { code := [rel, rPointer 0, float 0x3F8CCCCD, float 0], refs := [1] },
  { code := [rel, iPointer 4, iPointer 6, float 0, set 1, rPointer 0, set 1, rPointer 0], refs := [1] },
  { code := [rel, rPointer 0, iPointer 4, float 0, duration, 0, 200000], refs := [1] },
  { code := [rel, rPointer 0, iPointer 4, float 0, duration, 0, 100000], refs := [1] } ][o]?

/-- One unbound variable. -/
def oneVar : BMap := { slots := [.unbound 0], unboundValues := 1 }

def exTi : Word := object 20 2

theorem odd_ent (V : Word → Prop) (H : Obj → Nat → Prop) : Ok oddHeap Match.exOpc V H (.obj 1) :=
  Ok.named (o := { code := [object 1 1, float 0] }) rfl rfl (by decide)

theorem odd_float (V : Word → Prop) (H : Obj → Nat → Prop) {o : Obj} {b : Word} (hb : Leaf b) (hV : V b) :
    Ok oddHeap Match.exOpc V H (.word o b) := Ok.word hb.2.2.1 hb.2.2.2 hV

theorem ground_rel {h : Heap} {oc : Opc} {V : Word → Prop} {H : Obj → Nat → Prop} {a : Nat} {o : Obj} {x y z : Word}
    {l : Code} (ho : h a = some o) (hc : o.code = rel :: x :: y :: z :: l) (hn : ¬ Named oc rel)
    (hx : Ok h oc V H (.word o x)) (hy : Ok h oc V H (.word o y)) (hz : Ok h oc V H (.word o z)) :
    Ok h oc V H (.obj a) := by
  have h3 : count rel = 3 := by decide
  refine Ok.obj ho (w := rel) (by simp [hc]) hn (by omega) (by simp [hc, h3]) fun k b k1 k2 hb => ?_
  rw [h3] at k2
  rcases (by omega : k = 1 ∨ k = 2 ∨ k = 3) with rfl | rfl | rfl <;>
    simp only [hc, List.getElem?_cons_succ, List.getElem?_cons_zero, Option.some.injEq] at hb <;> subst hb
  · exact hx
  · exact hy
  · exact hz

theorem oneVar_good (h : Heap) (oc : Opc) : Good h oc oneVar := by
  intro v s hs
  match v with
  | 0 =>
    obtain rfl : Slot.unbound 0 = s := by simpa [oneVar] using hs
    rfl
  | v + 1 => simp [oneVar] at hs

theorem odd_not_named : ¬ Named Match.exOpc rel := by decide

/-- A pattern with the same variable twice matches an entity and the number 1.0: the number is taken for a
reference. With other numbers, or two sets holding references, the references read do not exist. A duration of
200 ms matches one of 100 ms. -/
theorem C81_unified_violated : ¬ C81_full ∧
    matchObject oddHeap Match.exOpc Match.exTol exTi 10 oneVar 0 2 =
      some (true, { slots := [.bound (.obj 1)], unboundValues := 0 }) ∧
    (∀ g, matchObject oddHeap Match.exOpc Match.exTol exTi (g + 10) oneVar 3 2 = none) ∧
    (∀ g, matchObject oddHeap Match.exOpc Match.exTol exTi (g + 10) oneVar 4 2 = none) ∧
    matchObject oddHeap Match.exOpc Match.exTol exTi 10 oneVar 5 6 = some (true, oneVar) := by
  refine ⟨fun H => ?_, by decide, fun g => rfl, fun g => rfl, by decide⟩
  have hg : Ground oddHeap Match.exOpc (.obj 0) := by
    refine ground_rel (o := { code := [rel, rPointer 0, float 0x3F800000, float 0], refs := [1] }) rfl rfl
      odd_not_named ?_ ?_ ?_
    · exact Ok.ref (by decide) (a := 1) (by decide) (odd_ent _ _)
    · exact odd_float _ _ (by decide) (by decide)
    · exact odd_float _ _ (by decide) (by decide)
  have hp : Pattern oddHeap Match.exOpc exTi oneVar.slots.length (.obj 2) := by
    refine ground_rel (o := { code := [rel, vlPointer 0, vlPointer 0, float 0] }) rfl rfl
      odd_not_named ?_ ?_ ?_
    · exact Ok.word (by decide) (by decide) (fun _ => by decide)
    · exact Ok.word (by decide) (by decide) (fun _ => by decide)
    · exact Ok.word (by decide) (by decide) (fun _ => by decide)
  obtain ⟨r, m', ⟨f, hf⟩, -, -, hfit, -⟩ :=
    H oddHeap Match.exOpc Match.exTol exTi oneVar 0 2 (by decide) (by decide) hg hp (oneVar_good _ _)
  have h1 : matchObject oddHeap Match.exOpc Match.exTol exTi (f + 10) oneVar 0 2 = some (r, m') :=
    hf (f + 10) (by omega)
  have h2 : matchObject oddHeap Match.exOpc Match.exTol exTi (f + 10) oneVar 0 2 =
      some (true, { slots := [.bound (.obj 1)], unboundValues := 0 }) := rfl
  rw [h2] at h1
  obtain ⟨rfl, rfl⟩ := Prod.mk.inj (Option.some.inj h1)
  have hF := hfit rfl
  cases hF with
  | obj g1 g2 g3 g4 g5 g6 g7 =>
    cases g1
    cases g2
    cases g3
    have hw := g7 2 (float 0x3F800000) (vlPointer 0) (by decide) (by decide) rfl rfl
    cases hw with
    | wild h => exact absurd h (by decide)
    | @varAtom _ _ _ _ x _ h =>
      have h : some (Slot.bound (.obj 1)) = some (Slot.bound (.atom x)) := h
      cases h
    | varStr _ _ h => exact absurd h (by decide)
    | varObj _ _ h => exact absurd h (by decide)
    | atom _ h => exact absurd h.2.1 (by decide)
    | sub h => exact absurd h (by decide)
    | ref h => exact absurd h (by decide)

/-! ## A case of the partial theorem -/

/-- `(rel e [2.0 e])`. -/
def exObj : Obj := { code := [rel, rPointer 0, iPointer 4, float 0, set 2, float 0x40000000, rPointer 0], refs := [1] }
/-- `(rel v0 [v1 v0])`. -/
def exPat : Obj := { code := [rel, vlPointer 0, iPointer 4, float 0, set 2, vlPointer 1, vlPointer 0] }
def exEnt : Obj := { code := [object 1 1, float 0] }
def exHeap : Heap := fun o => [exObj, exEnt, exPat][o]?
def twoVars : BMap := { slots := [.unbound 0, .unbound 1], unboundValues := 2 }
def exMap : BMap := { slots := [.bound (.obj 1), .bound (.atom (float 0x40000000))] }

theorem ok_set {h : Heap} {oc : Opc} {V : Word → Prop} {H : Obj → Nat → Prop} {o : Obj} {i : Nat} {x y : Word}
    (h0 : o.code[i]? = some (set 2)) (hl : i + 2 < o.code.length) (hH : H o i) (h1 : o.code[i + 1]? = some x)
    (h2 : o.code[i + 2]? = some y) (hx : Ok h oc V H (.word o x)) (hy : Ok h oc V H (.word o y)) :
    Ok h oc V H (.str o i) := by
  have hc : count (set 2) = 2 := by decide
  refine Ok.str h0 (by decide) (by decide) (by omega) hH fun k b k1 k2 hb => ?_
  rcases (by omega : k = 1 ∨ k = 2) with rfl | rfl
  · rw [h1] at hb; cases hb; exact hx
  · rw [h2] at hb; cases hb; exact hy

theorem ex_ent (V : Word → Prop) (H : Obj → Nat → Prop) : Ok exHeap Match.exOpc V H (.obj 1) :=
  Ok.named (o := exEnt) rfl rfl (by decide)

theorem ex_ground : Ground exHeap Match.exOpc (.obj 0) := by
  have he : Ok exHeap Match.exOpc Leaf (fun _ _ => True) (.word exObj (rPointer 0)) :=
    Ok.ref (by decide) (a := 1) (by decide) (ex_ent _ _)
  refine ground_rel (o := exObj) rfl rfl odd_not_named he (Ok.sub (by decide) ?_) (Ok.word (by decide) (by decide) (by decide))
  exact ok_set (x := float 0x40000000) (y := rPointer 0) (by decide) (by decide) trivial (by decide) (by decide)
    (Ok.word (by decide) (by decide) (by decide)) he

theorem ex_pattern : Pattern exHeap Match.exOpc exTi twoVars.slots.length (.obj 2) := by
  refine ground_rel (o := exPat) rfl rfl odd_not_named (Ok.word (by decide) (by decide) fun _ => by decide)
    (Ok.sub (by decide) ?_) (Ok.word (by decide) (by decide) fun _ => by decide)
  refine ok_set (x := vlPointer 1) (y := vlPointer 0) (by decide) (by decide) (fun h => ?_) (by decide) (by decide)
    (Ok.word (by decide) (by decide) fun _ => by decide) (Ok.word (by decide) (by decide) fun _ => by decide)
  exact absurd h.1 (by decide)

theorem ex_good : Good exHeap Match.exOpc twoVars := by
  intro v s hs
  match v with
  | 0 =>
    obtain rfl : Slot.unbound 0 = s := by simpa [twoVars] using hs
    rfl
  | 1 =>
    obtain rfl : Slot.unbound 1 = s := by simpa [twoVars] using hs
    rfl
  | v + 2 => simp [twoVars] at hs

/-- What the variables of the pattern meet. -/
theorem ex_meet {o p : Obj} {w v : Word} (hi : Inside exHeap Match.exOpc (.obj 0 2) (.word o w p v)) (hv : isVar v) :
    (w = rPointer 0 ∧ v = vlPointer 0) ∨ (w = float 0x40000000 ∧ v = vlPointer 1) := by
  cases hi with
  | @obj o' p' _ _ w' k a b _ g1 g2 g3 g4 g5 k1 k2 ha hb hi =>
    cases g1
    cases g2
    cases g3
    have h3 : count rel = 3 := by decide
    have k2 : k ≤ count rel := k2
    rcases (by omega : k = 1 ∨ k = 2 ∨ k = 3) with rfl | rfl | rfl
    · cases ha
      cases hb
      cases hi with
      | here => exact Or.inl ⟨rfl, rfl⟩
      | sub h => exact absurd h (by decide)
      | ref _ h => exact absurd h (by decide)
    · cases ha
      cases hb
      cases hi with
      | here => exact absurd hv (by decide)
      | ref h => exact absurd h (by decide)
      | sub _ _ hi =>
        cases hi with
        | @str _ _ _ _ w'' k a b _ f1 f2 f3 k1 k2 ha hb hi =>
          have f1 : some (set 2) = some w'' := f1
          cases f1
          have h2 : count (set 2) = 2 := by decide
          rcases (by omega : k = 1 ∨ k = 2) with rfl | rfl
          · have ha : some (float 0x40000000) = some a := ha
            have hb : some (vlPointer 1) = some b := hb
            cases ha
            cases hb
            cases hi with
            | here => exact Or.inr ⟨rfl, rfl⟩
            | sub h => exact absurd h (by decide)
            | ref h => exact absurd h (by decide)
          · have ha : some (rPointer 0) = some a := ha
            have hb : some (vlPointer 0) = some b := hb
            cases ha
            cases hb
            cases hi with
            | here => exact Or.inl ⟨rfl, rfl⟩
            | sub h => exact absurd h (by decide)
            | ref _ h => exact absurd h (by decide)
    · cases ha
      cases hb
      cases hi with
      | here => exact absurd hv (by decide)
      | sub h => exact absurd h (by decide)
      | ref h => exact absurd h (by decide)

theorem ex_safe : Safe exHeap Match.exOpc (· = 0) (.obj 0 2) := by
  intro o w p v hi hv
  rcases ex_meet hi hv with ⟨rfl, rfl⟩ | ⟨rfl, rfl⟩
  · exact ⟨by decide, fun h => absurd h (by decide)⟩
  · exact ⟨by decide, fun h => absurd h (by decide)⟩

theorem ex_is : Is exHeap Match.exOpc exMap (.obj 0 2) := by
  refine Is.obj (o := exObj) (p := exPat) (w := rel) rfl rfl rfl rfl odd_not_named fun k a b k1 k2 ha hb => ?_
  have h3 : count rel = 3 := by decide
  rcases (by omega : k = 1 ∨ k = 2 ∨ k = 3) with rfl | rfl | rfl <;> cases ha <;> cases hb
  · exact Is.var (x := .obj 1) (by decide) (by decide) ⟨by decide, by decide⟩
  · refine Is.sub (by decide) (by decide) (Is.str (w := set 2) (by decide) (by decide) (by decide) fun k a b k1 k2 ha hb => ?_)
    have h2 : count (set 2) = 2 := by decide
    rcases (by omega : k = 1 ∨ k = 2) with rfl | rfl
    · have ha : some (float 0x40000000) = some a := ha
      have hb : some (vlPointer 1) = some b := hb
      cases ha
      cases hb
      exact Is.var (x := .atom (float 0x40000000)) (by decide) (by decide) ⟨by decide, rfl⟩
    · have ha : some (rPointer 0) = some a := ha
      have hb : some (vlPointer 0) = some b := hb
      cases ha
      cases hb
      exact Is.var (x := .obj 1) (by decide) (by decide) ⟨by decide, by decide⟩
  · exact Is.atom (by decide)

/-- The hypotheses of `C81_unified_partial` hold for a nested pattern in which a variable occurs twice, and there
are values that make it the object; matching finds them. -/
theorem C81_nonvacuous : Ground exHeap Match.exOpc (.obj 0) ∧
    Pattern exHeap Match.exOpc exTi twoVars.slots.length (.obj 2) ∧ Good exHeap Match.exOpc twoVars ∧
    Typed (· = 0) twoVars ∧ Safe exHeap Match.exOpc (· = 0) (.obj 0 2) ∧ Within twoVars exMap ∧
    Is exHeap Match.exOpc exMap (.obj 0 2) ∧
    (matchObject exHeap Match.exOpc Match.exTol exTi 10 twoVars 0 2).map (fun r => (r.1, r.2.slots)) =
      some (true, exMap.slots) := by
  refine ⟨ex_ground, ex_pattern, ex_good, fun v r h => ?_, ex_safe, fun v x h => ?_, ex_is, by decide⟩
  · match v with
    | 0 => rfl
    | 1 => simp [twoVars] at h
    | v + 2 => simp [twoVars] at h
  · match v with
    | 0 => simp [twoVars] at h
    | 1 => simp [twoVars] at h
    | v + 2 => simp [twoVars] at h

end Verif.Unify
