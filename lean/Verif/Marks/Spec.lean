import Verif.Marks.Model
/-!
# What is wanted of marker sets (C176)
-/
namespace Verif.Marks

/-- The states there can be, by operations that satisfy `P`. -/
inductive Reach (P : State → Op → Prop) : State → Prop
  | init : Reach P {}
  | next {s s' : State} {op : Op} : Reach P s → P s op → step s op = some s' → Reach P s'

/-- A marker that is in memory: there, injected or loaded, and not invalidated. -/
def Placed (o : Obj) : Prop := o.alive = true ∧ o.marker = true ∧ o.registered = true ∧ o.valid = true

instance (o : Obj) : Decidable (Placed o) := by unfold Placed; infer_instance

/-- C176 of an object: its markers are those in memory that refer to it, each as often as it does. -/
def Exact (s : State) (a : Nat) : Prop :=
  ∀ m, (s.obj a).marks.count m = if Placed (s.obj m) then (s.obj m).refs.count a else 0

/-- The secondary group of a group is the second of a pair in memory of which it is the first; there is none if there is no such pair. -/
def Paired (s : State) (a : Nat) : Prop :=
  ∃ r, secondary s a (s.obj a).marks = some r ∧
    (∀ t, r = some t → ∃ m, Placed (s.obj m) ∧ (s.obj m).pair = some (a, t)) ∧
    (r = none → ∀ m t, Placed (s.obj m) → (s.obj m).pair ≠ some (a, t))

/-- C176: of all objects, at all times. -/
def C176_full : Prop :=
  ∀ s, Reach (fun _ _ => True) s → ∀ a, (s.obj a).alive = true → Exact s a ∧ Paired s a

/-- Markers are `Object`s; they are loaded, or injected as notifications, once, and before they are invalidated. -/
def Once (s : State) : Op → Prop
  | .create mk ex _ _ => mk = true → ex = true
  | .load a _ => (s.obj a).marker = true → (s.obj a).registered = false ∧ (s.obj a).valid = true
  | .notify a _ => (s.obj a).registered = false ∧ (s.obj a).valid = true
  | _ => True

end Verif.Marks
