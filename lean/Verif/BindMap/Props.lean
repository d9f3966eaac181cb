import Verif.BindMap.Model
import Verif.Atom.Lemmas
/-!
# Property C15: unbound-variable counting

Histories act on any number of binding maps (named by naturals). The specification knows, for
every variable, only whether it is missing, unbound or bound.
-/
namespace Verif.BindMap
open Verif.Atom Verif.Words

/-! ## Histories -/

/-- One operation on the maps. Variables are the 12-bit indices an atom can carry. -/
inductive Op
  | create (k : Nat)
  | addVar (k : Nat) (v : BitVec 16)
  | bind (k : Nat) (v : BitVec 16) (x : Val)
  | set (k : Nat) (v : BitVec 16) (x : Val)
  | matchWord (k : Nat) (v : BitVec 8) (w : Word) (sub : Code) (ref : Nat)
  | push (k : Nat) (x : Val)
  | clear (k : Nat)
  | copy (dst src : Nat)

/-- The variable an operation names. -/
def Op.var : Op → Nat
  | .addVar _ v | .bind _ v _ | .set _ v _ => v.toNat
  | _ => 0

def upd {α : Type} (f : Nat → α) (k : Nat) (x : α) : Nat → α := fun j => if j = k then x else f j

/-- One operation on the modelled maps. `matchWord` is matching a pattern variable that is still
unbound (binding_map.cpp:668, 685, 702); matching a bound variable binds nothing. -/
def step (h : Nat → BMap) : Op → Option (Nat → BMap)
  | .create k => some (upd h k .empty)
  | .addVar k v => (addUnbound (h k) v).map (upd h k)
  | .bind k v x => (bindVariable (h k) x v).map (upd h k)
  | .set k v x => (setSlot (h k) x v.toNat).map (upd h k)
  | .matchWord k v w sub ref =>
    match (h k).slots[v.toNat]? with
    | some (.unbound _) => (unboundMatch (h k) v w sub ref).map (upd h k)
    | some (.bound _) => some h
    | _ => none
  | .push k x => some (upd h k (pushBound (h k) x))
  | .clear k => some (upd h k (BindMap.clear (h k)))
  | .copy d s => if d = s then none else (copyFrom (h d) (h s)).map (upd h d)

def run (h : Nat → BMap) : List Op → Option (Nat → BMap)
  | [] => some h
  | o :: l => (step h o).bind fun h' => run h' l

/-! ## Specification -/

inductive VarState
  | missing | unbound | bound
  deriving DecidableEq

/-- Does a word met in an object bind the variable (anything but the anonymous wildcard does)? -/
def Binds (w : Word) : Bool := getDescriptor w != 0x82

def specStep (h : Nat → List VarState) : Op → Option (Nat → List VarState)
  | .create k => some (upd h k [])
  | .addVar k v =>
    some (upd h k ((h k ++ List.replicate (v.toNat + 1 - (h k).length) VarState.missing).set v.toNat .unbound))
  | .bind k v _ | .set k v _ =>
    if v.toNat < (h k).length then some (upd h k ((h k).set v.toNat .bound)) else none
  | .matchWord k v w _ _ =>
    match (h k)[v.toNat]? with
    | some .unbound => some (upd h k (if Binds w then (h k).set v.toNat .bound else h k))
    | some .bound => some h
    | _ => none
  | .push k _ => some (upd h k (h k ++ [.bound]))
  | .clear k => some (upd h k [])
  | .copy d s =>
    if d = s ∨ (h s).length > 255 ∨ .missing ∈ h s then none else some (upd h d (h s))

def specRun (h : Nat → List VarState) : List Op → Option (Nat → List VarState)
  | [] => some h
  | o :: l => (specStep h o).bind fun h' => specRun h' l

/-- None of the variables is unbound. -/
def AllBound (l : List VarState) : Prop := VarState.unbound ∉ l

/-- C15, full statement: for every history over 12-bit variables from freshly created maps, a map
reports itself fully bound exactly when none of its variables is unbound. -/
def C15_full : Prop :=
  ∀ (ops : List Op) (h : Nat → BMap) (s : Nat → List VarState),
    (∀ o ∈ ops, o.var < 4096) →
    run (fun _ => .empty) ops = some h → specRun (fun _ => []) ops = some s →
    ∀ k, (s k).length < 4294967296 → (isFullySpecified (h k) = true ↔ AllBound (s k))

/-! ## Proof internals -/

def stateOf : Slot → VarState
  | .null => .missing
  | .unbound _ => .unbound
  | .bound _ => .bound

/-- Representation: same states, and the counter is the number of unbound slots modulo 2^32. -/
def Rep (m : BMap) (l : List VarState) : Prop :=
  m.slots.map stateOf = l ∧ m.unboundValues = (m.slots.map weight).sum

theorem sum_set (l : List Slot) (i : Nat) (s old : Slot) (h : l[i]? = some old) :
    ((l.set i s).map weight).sum = (l.map weight).sum + weight s - weight old := by
  induction l generalizing i with
  | nil => simp at h
  | cons x l ih =>
    cases i with
    | zero =>
      simp only [List.getElem?_cons_zero, Option.some.injEq] at h
      subst h
      simp only [List.set_cons_zero, List.map_cons, List.sum_cons]
      apply BitVec.eq_of_toNat_eq
      simp only [BitVec.toNat_sub, BitVec.toNat_add]
      have := (weight x).isLt; have := (weight s).isLt; have := (l.map weight).sum.isLt
      omega
    | succ i =>
      simp only [List.getElem?_cons_succ] at h
      simp only [List.set_cons_succ, List.map_cons, List.sum_cons, ih i h]
      apply BitVec.eq_of_toNat_eq
      simp only [BitVec.toNat_sub, BitVec.toNat_add]
      have := (weight x).isLt; have := (weight s).isLt; have := (l.map weight).sum.isLt
      have := (weight old).isLt
      omega

theorem assign_some {m : BMap} {i : Nat} {s : Slot} (hi : i < m.slots.length)
    (hr : m.unboundValues = (m.slots.map weight).sum) :
    ∃ m', assign m i s = some m' ∧ Rep m' ((m.slots.map stateOf).set i (stateOf s)) := by
  have hg : m.slots[i]? = some m.slots[i] := List.getElem?_eq_getElem hi
  refine ⟨{ m with slots := (m.slots.set i s),
                   unboundValues := m.unboundValues + weight s - weight m.slots[i] },
      by simp only [assign, hg], ?_, ?_⟩
  · simp only [List.map_set]
  · simp only; rw [sum_set _ _ _ _ hg, hr]

theorem assign_none {m : BMap} {i : Nat} {s : Slot} (hi : ¬ i < m.slots.length) :
    assign m i s = none := by
  have hg : m.slots[i]? = none := List.getElem?_eq_none (by omega)
  simp only [assign, hg]

theorem setWidth8 (v : BitVec 16) (h : v.toNat < 256) : (v.setWidth 8 : BitVec 8).toNat = v.toNat := by
  simp; omega

theorem sum_append_null (l : List Slot) (n : Nat) :
    ((l ++ List.replicate n Slot.null).map weight).sum = (l.map weight).sum := by
  induction l with
  | nil =>
    simp only [List.nil_append, List.map_nil, List.sum_nil]
    induction n with
    | zero => rfl
    | succ n ih => rw [List.replicate_succ, List.map_cons, List.sum_cons, ih]; decide
  | cons x l ih => rw [List.cons_append, List.map_cons, List.sum_cons, ih, List.map_cons, List.sum_cons]

theorem addUnbound_rep {m : BMap} {l : List VarState} (hr : Rep m l) (v : BitVec 16)
    (hv : v.toNat < 256) :
    ∃ m', addUnbound m v = some m' ∧
      Rep m' ((l ++ List.replicate (v.toNat + 1 - l.length) VarState.missing).set v.toNat .unbound) := by
  obtain ⟨h1, h2⟩ := hr
  have hlen : m.slots.length = l.length := by rw [← h1, List.length_map]
  simp only [addUnbound, setWidth8 v hv]
  split
  · rename_i hge
    obtain ⟨m', e, r⟩ := assign_some (s := .unbound (v.setWidth 8)) (i := v.toNat)
      (m := { m with slots := m.slots ++ List.replicate (v.toNat + 1 - m.slots.length) .null })
      (by simp; omega) (by simp only; rw [sum_append_null, h2])
    refine ⟨m', e, ?_⟩
    simp only [List.map_append, h1, List.map_replicate, stateOf, hlen] at r
    exact r
  · rename_i hlt
    obtain ⟨m', e, r⟩ := assign_some (s := .unbound (v.setWidth 8)) (i := v.toNat) (m := m)
      (by omega) h2
    refine ⟨m', e, ?_⟩
    have : v.toNat + 1 - l.length = 0 := by omega
    rw [this, List.replicate_zero, List.append_nil]
    rw [h1] at r; exact r

/-- Relation between an outcome of the model and one of the specification. -/
def Rel (a : Option (Nat → BMap)) (b : Option (Nat → List VarState)) : Prop :=
  match a, b with
  | some h, some s => ∀ k, Rep (h k) (s k)
  | none, none => True
  | _, _ => False

theorem rel_upd {h : Nat → BMap} {s : Nat → List VarState} (hr : ∀ k, Rep (h k) (s k)) (k : Nat)
    {m : BMap} {l : List VarState} (hm : Rep m l) : ∀ j, Rep (upd h k m j) (upd s k l j) := by
  intro j
  unfold upd
  split
  · exact hm
  · exact hr j

theorem rep_assign {m : BMap} {l : List VarState} (hr : Rep m l) (i : Nat) (x : Val)
    {h : Nat → BMap} {s : Nat → List VarState} (hk : ∀ k, Rep (h k) (s k)) (k : Nat) :
    Rel ((assign m i (.bound x)).map (upd h k))
      (if i < l.length then some (upd s k (l.set i .bound)) else none) := by
  have hlen : m.slots.length = l.length := by rw [← hr.1, List.length_map]
  by_cases hi : i < l.length
  · obtain ⟨m', e, r⟩ := assign_some (s := .bound x) (m := m) (i := i) (by omega) hr.2
    rw [if_pos hi, e]
    rw [hr.1] at r
    exact rel_upd hk k r
  · rw [if_neg hi, assign_none (by omega)]; trivial

theorem step_rel {h : Nat → BMap} {s : Nat → List VarState} (hr : ∀ k, Rep (h k) (s k)) (o : Op)
    (ho : o.var < 256) : Rel (step h o) (specStep s o) := by
  cases o with
  | create k => exact rel_upd hr k ⟨rfl, rfl⟩
  | addVar k v =>
    obtain ⟨m', e, r⟩ := addUnbound_rep (hr k) v ho
    simp only [step, specStep, e, Option.map_some]
    exact rel_upd hr k r
  | bind k v x =>
    simp only [step, specStep, bindVariable, setWidth8 v ho]
    exact rep_assign (hr k) _ _ hr k
  | set k v x => exact rep_assign (hr k) _ _ hr k
  | matchWord k v w sub ref =>
    have e1 : (s k)[v.toNat]? = ((h k).slots[v.toNat]?).map stateOf := by
      rw [← (hr k).1, List.getElem?_map]
    have hv := v.isLt
    have hv2 : (v.setWidth 16 : BitVec 16).toNat = v.toNat := by simp; omega
    have hv3 : ((v.setWidth 16 : BitVec 16).setWidth 8 : BitVec 8).toNat = v.toNat := by
      rw [setWidth8 _ (by omega), hv2]
    simp only [step, specStep, e1]
    cases hg : (h k).slots[v.toNat]? with
    | none => trivial
    | some sl =>
      have hlt : v.toNat < (s k).length := by
        rw [← (hr k).1, List.length_map]; exact (List.getElem?_eq_some_iff.mp hg).1
      cases sl with
      | null => trivial
      | bound x => exact hr
      | unbound id =>
        simp only [Option.map_some, stateOf, unboundMatch, bindVariable, hv3]
        have key : ∀ x : Val, Rel ((assign (h k) v.toNat (.bound x)).map (upd h k))
            (some (upd s k ((s k).set v.toNat .bound))) := by
          intro x
          have := rep_assign (hr k) v.toNat x hr k
          rw [if_pos hlt] at this
          exact this
        split
        · rename_i hd; simp only [Binds, hd]; exact key _
        · split
          · rename_i hd; simp only [Binds, hd]; exact key _
          · split
            · rename_i hd
              simp only [Binds, hd, Option.map_some]
              exact rel_upd hr k (hr k)
            · rename_i hd
              have : Binds w = true := by simp only [Binds, bne_iff_ne, ne_eq]; exact hd
              simp only [this, if_true]; exact key _
  | push k x =>
    refine rel_upd hr k ⟨?_, ?_⟩
    · simp only [pushBound, List.map_append, (hr k).1]; rfl
    · simp only [pushBound, (hr k).2, List.map_append, List.sum_append]
      simp [weight, Slot.isUnbound]
  | clear k =>
    refine rel_upd hr k ⟨rfl, ?_⟩
    simp only [BindMap.clear, (hr k).2, BitVec.sub_self]; rfl
  | copy d t =>
    simp only [step, specStep]
    by_cases hdt : d = t
    · simp only [hdt, if_true, true_or]; trivial
    · simp only [hdt, if_false, false_or, copyFrom]
      have hlen : (h t).slots.length = (s t).length := by rw [← (hr t).1, List.length_map]
      have hany : (h t).slots.any (· == .null) = true ↔ VarState.missing ∈ s t := by
        rw [← (hr t).1]
        simp only [List.any_eq_true, beq_iff_eq, List.mem_map]
        constructor
        · rintro ⟨x, hx, rfl⟩; exact ⟨_, hx, rfl⟩
        · rintro ⟨x, hx, hs⟩; cases x <;> simp [stateOf] at hs; exact ⟨_, hx, rfl⟩
      by_cases hl : (s t).length > 255
      · rw [if_pos (by omega), if_pos (Or.inl hl)]; trivial
      · rw [if_neg (by omega)]
        by_cases hm : VarState.missing ∈ s t
        · rw [if_pos (hany.mpr hm), if_pos (Or.inr hm)]; trivial
        · rw [if_neg (by rw [hany]; exact hm), if_neg (by simp [hl, hm])]
          exact rel_upd hr d ⟨(hr t).1, (hr t).2⟩

theorem run_rel (ops : List Op) : ∀ {h : Nat → BMap} {s : Nat → List VarState},
    (∀ k, Rep (h k) (s k)) → (∀ o ∈ ops, o.var < 256) → Rel (run h ops) (specRun s ops) := by
  induction ops with
  | nil => intro h s hr _; exact hr
  | cons o l ih =>
    intro h s hr ho
    have := step_rel hr o (ho o (by simp))
    simp only [run, specRun]
    cases e1 : step h o <;> cases e2 : specStep s o <;> rw [e1, e2] at this
    · trivial
    · exact this.elim
    · exact this.elim
    · exact ih this (fun o h => ho o (by simp [h]))

theorem sum_weight (l : List Slot) :
    (l.map weight).sum = BitVec.ofNat 32 (l.countP Slot.isUnbound) := by
  induction l with
  | nil => rfl
  | cons x l ih =>
    rw [List.map_cons, List.sum_cons, ih, List.countP_cons, weight]
    split <;> apply BitVec.eq_of_toNat_eq <;> simp [BitVec.toNat_add] <;> omega

theorem rep_full {m : BMap} {l : List VarState} (hr : Rep m l) (hl : l.length < 4294967296) :
    isFullySpecified m = true ↔ AllBound l := by
  obtain ⟨h1, h2⟩ := hr
  have hlen : m.slots.length = l.length := by rw [← h1, List.length_map]
  have hle : m.slots.countP Slot.isUnbound ≤ m.slots.length := List.countP_le_length
  rw [isFullySpecified, h2, sum_weight, beq_iff_eq, AllBound, ← h1]
  have e : BitVec.ofNat 32 (m.slots.countP Slot.isUnbound) = 0#32 ↔
      m.slots.countP Slot.isUnbound = 0 := by
    constructor
    · intro h
      have := congrArg BitVec.toNat h
      simp only [BitVec.toNat_ofNat] at this
      omega
    · intro h; rw [h]
  rw [BitVec.ofNat_eq_ofNat, e, List.countP_eq_zero]
  simp only [List.mem_map, not_exists, not_and]
  constructor
  · intro h x hx hs
    cases x <;> simp [stateOf] at hs
    exact h _ hx rfl
  · intro h x hx hs
    cases x <;> simp [Slot.isUnbound] at hs
    exact h _ hx rfl

/-! ## C15 -/

set_option maxRecDepth 8000 in
/-- The full statement fails: variable 256 is added as variable 0 (`uint8` parameter), so binding
variable 0 makes the map look complete. -/
theorem C15_unbound_count_violated :
    ¬ C15_full ∧ ∃ h, run (fun _ => .empty) [.addVar 0 0, .addVar 0 256, .bind 0 0 (.obj 7)] = some h ∧
      isFullySpecified (h 0) = true ∧ (h 0).slots[256]? = none := by
  refine ⟨?_, ?_⟩
  · intro hf
    have e1 : ∃ h, run (fun _ => .empty) [.addVar 0 0, .addVar 0 256, .bind 0 0 (.obj 7)] = some h ∧
        isFullySpecified (h 0) = true := ⟨_, rfl, by decide⟩
    obtain ⟨h, eh, hfull⟩ := e1
    have e2 : ∃ s, specRun (fun _ => [])
        [.addVar 0 0, .addVar 0 256, .bind 0 0 (.obj 7)] = some s ∧
        (s 0).length = 257 ∧ (s 0)[256]? = some .unbound := by
      refine ⟨_, rfl, ?_, ?_⟩
      · simp [upd]
      · simp [upd]
    obtain ⟨s, es, hlen, hun⟩ := e2
    exact (hf _ h s (by decide) eh es 0 (by omega)).mp hfull (List.mem_of_getElem? hun)
  · exact ⟨_, rfl, by decide, by decide⟩

/-- C15, proved part: with variables below 256, after any history on any number of maps (creation,
adding, binding, rebinding, matching, copying, clearing) the code is defined exactly when the
specification is, and then every map reports itself fully bound exactly when none of its variables
is unbound. Missing: variables 256 to 4095, for which the statement is false. -/
theorem C15_unbound_count_partial (ops : List Op) (hv : ∀ o ∈ ops, o.var < 256) :
    (run (fun _ => .empty) ops).isSome = (specRun (fun _ => []) ops).isSome ∧
    ∀ h s, run (fun _ => .empty) ops = some h → specRun (fun _ => []) ops = some s →
      ∀ k, (s k).length < 4294967296 → (isFullySpecified (h k) = true ↔ AllBound (s k)) := by
  have hr : Rel (run (fun _ => BMap.empty) ops) (specRun (fun _ => []) ops) :=
    run_rel ops (fun _ => ⟨rfl, rfl⟩) hv
  refine ⟨?_, ?_⟩
  · cases e1 : run (fun _ => BMap.empty) ops <;> cases e2 : specRun (fun _ => []) ops <;>
      rw [e1, e2] at hr <;> first | rfl | exact hr.elim
  · intro h s e1 e2 k hl
    rw [e1, e2] at hr
    exact rep_full (hr k) hl

/-- Hypotheses met, and both verdicts occur: a map with two variables is copied before the second
one is bound. -/
example : ∃ h, run (fun _ => .empty)
    [.addVar 0 0, .addVar 0 1, .bind 0 0 (.obj 7), .copy 1 0, .matchWord 0 1 (float 0x3F800000) [] 0]
      = some h ∧ isFullySpecified (h 0) = true ∧ isFullySpecified (h 1) = false :=
  ⟨_, rfl, by decide, by decide⟩

end Verif.BindMap
