import Verif.Mix.Model
/-!
# What is wanted of composite states in simulations (C175)
-/
namespace Verif.Mix

def Overlay.ins {B : Type} (o : Overlay B) : List Input := o.axIns ++ o.nonIns

def Overlay.pats {B : Type} (o : Overlay B) : List Nat := o.axPats ++ o.nonPats

/-- The overlays there can be, with inputs that satisfy `P`. -/
inductive Reach {B : Type} (l : Lang B) (P : Input → Prop) : Overlay B → Prop
  | master (ax non : List Nat) (b : B) : Reach l P { axPats := ax, nonPats := non, binds := b }
  | took {o o1 o2 : Overlay B} {i : Input} : Reach l P o → P i → reduce l o i = some (o1, o2) → Reach l P o1
  | off {o o1 o2 : Overlay B} {i : Input} : Reach l P o → P i → reduce l o i = some (o1, o2) → Reach l P o2

/-- There is a simulation that all the simulated ones are in. -/
def Together (is : List Input) : Prop := ∃ s, ∀ i ∈ is, i.sims = [] ∨ s ∈ i.sims

/-- All that an overlay has is axioms, and the input is simulated and over before they begin. -/
def Early {B : Type} (l : Lang B) (o : Overlay B) (i : Input) : Prop :=
  i.sims ≠ [] ∧ o.axIns ≠ [] ∧ o.nonIns = [] ∧ i.before ≤ l.fwdAfter o.binds

/-- All that an overlay has is axioms, and the input is simulated and begins when they are over. -/
def Late {B : Type} (l : Lang B) (o : Overlay B) (i : Input) : Prop :=
  i.sims ≠ [] ∧ o.axIns ≠ [] ∧ o.nonIns = [] ∧ l.fwdBefore o.binds ≤ i.after ∧ l.fwdAfter o.binds < i.before

/-- The input matches a pattern that is left: at its own times if it is the first, or if the others are axioms and it is later. -/
def Matches {B : Type} (l : Lang B) (o : Overlay B) (i : Input) : Prop :=
  ∃ p ∈ o.pats, ∃ r b, l.bind r o.binds i p = some b ∧ (r = true ↔ o.ins = [] ∨ Late l o i)

/-- C175 of an overlay. -/
structure C175At {B : Type} (l : Lang B) (o : Overlay B) : Prop where
  /-- what is put together is of one simulation -/
  one : Together o.ins
  /-- it is said to be of the simulations of its inputs -/
  said : ∀ s ∈ o.sims, ∃ i ∈ o.ins, s ∈ i.sims
  some : o.sims = [] → ∀ i ∈ o.ins, i.sims = []

/-- An overlay takes the inputs that can be put together with what it has, and no others. -/
def Takes {B : Type} (l : Lang B) (o : Overlay B) (i : Input) : Prop :=
  (reduce l o i).isSome = true ↔ Together (i :: o.ins) ∧ ¬ Early l o i ∧ Matches l o i

/-- What becomes of an overlay that takes an input: it has the input, and one pattern less, that matched, unless that was the last; a
copy of it is left that is as before. -/
def Gives {B : Type} (l : Lang B) (o : Overlay B) (i : Input) : Prop :=
  ∀ o1 o2, reduce l o i = some (o1, o2) → o2 = o ∧ o1.ins.Perm (i :: o.ins) ∧
    ∃ p r, l.bind r o.binds i p = some o1.binds ∧ (r = true ↔ o.ins = [] ∨ Late l o i) ∧
      p ∈ o.pats ∧ (o.pats.length ≠ 1 → (p :: o1.pats).Perm o.pats)

/-- C175: instances of composite states are made of what belongs to one simulation, and of all that does. -/
def C175_full : Prop :=
  ∀ (B : Type) (l : Lang B) (o : Overlay B), Reach l (fun _ => True) o → C175At l o ∧ ∀ i, Takes l o i ∧ Gives l o i

/-- Predictions are in one simulation at most. -/
def Single (i : Input) : Prop := i.sims.length ≤ 1

end Verif.Mix
