import Verif.Inless.Model
/-!
# What is wanted of input-less programs
-/
namespace Verif.Inless

/-- The times of the runs, newest first. -/
def runs : List Ev → List Nat
  | [] => []
  | .run t _ :: l => t :: runs l
  | .start _ :: l => runs l

/-- How often the program became active. -/
def starts : List Ev → Nat
  | [] => 0
  | .run _ _ :: l => starts l
  | .start _ :: l => starts l + 1

/-- The runs in the time scope that begins at `a`. -/
def runsIn (p : Pgm) (a : Nat) (l : List Ev) : Nat := ((runs l).filter fun t => a ≤ t && t < a + p.tsc).length

/-- The program is to go on: it is active, and so is its group. -/
def State.on (s : State) : Prop := s.invalidated = false ∧ s.view = true ∧ s.group = true

/-- C172 of a state. -/
structure C172At (p : Pgm) (s : State) : Prop where
  /-- two runs are a time scope apart at least -/
  apart : (runs s.log).Pairwise fun new old => old + p.tsc ≤ new
  /-- a program that is to run once runs once at most -/
  once : p.once = true → (runs s.log).length ≤ 1
  /-- it runs only while it is active -/
  active : ∀ t b, Ev.run t b ∈ s.log → b = true
  /-- it goes on for as long as it is active: a run is due within a time scope, or is about to begin -/
  goes : s.on → s.inside > 0 ∨ ∃ t ∈ s.jobs, t ≤ s.now + p.tsc

/-- C172: an input-less program runs once in a time scope while it is active. -/
def C172_full : Prop := ∀ p now v g as s, run p (inject p now v g) as = some s → C172At p s

/-- A step that does not disturb: nothing but time comes between the check and the run; when the program becomes
active again the jobs of its earlier activity have been dropped; and the group changes in updates of the view only. -/
def Calm (s : State) (a : Act) : Prop :=
  (s.inside > 0 → a = .signal ∨ ∃ d, a = .tick d) ∧
  (∀ v g, a = .update v g → (v && g) = true → (s.view && s.group) = false → s.jobs = []) ∧
  ∀ g, a = .early g → g = s.group

/-- All steps are so. -/
def AllCalm (p : Pgm) : State → List Act → Prop
  | _, [] => True
  | s, a :: as => Calm s a ∧ ∀ s', step p s a = some s' → AllCalm p s' as

end Verif.Inless
