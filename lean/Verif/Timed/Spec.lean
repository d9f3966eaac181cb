import Verif.Timed.Model
/-!
# What is wanted of timed jobs
-/
namespace Verif.Timed

/-- What the job was last asked for. -/
def due : List Ev → Option Int
  | [] => none
  | .ask t :: _ => t
  | _ :: l => due l

/-- It is time for what was asked for. -/
def Time (d : Option Int) (t : Int) : Prop := ∃ x, d = some x ∧ (x = 0 ∨ x ≤ t)

/-- The job was found dead, the executive stopped, or the job ended its core. -/
def Excused (as : List Act) : Prop := Act.stop ∈ as ∨ ∃ e, Act.go e ∈ as ∧ (e.alive = false ∨ e.ans.run = false)

/-- C159 of a state after the steps `as`. -/
structure C159At (as : List Act) (s : State) : Prop where
  /-- the job is done only when it has been asked for, not before its time, and once for each time it is asked for -/
  timely : ∀ post pre t, s.log = post ++ .run t :: pre → Time (due pre) t
  /-- each time it is done, the next time is the one it gives -/
  asks : ∀ post pre t, s.log = post ++ .run t :: pre → ∃ p x, post = p ++ [.ask x]
  /-- what is reported is how late it was done -/
  lags : ∀ post pre l, s.log = post ++ .report l :: pre → 0 < l ∧ ∃ x t old, pre = .ask x :: .run t :: old ∧ due old = some (t - l)
  /-- it is not dropped while it is asked for -/
  kept : s.loc = .out → due s.log = none ∨ Excused as

/-- What a step of a thread adds: nothing, or that the job was done, what it gave for the next time, and a delay. -/
def Adds (old : List Ev) (clock : Int) (a : Ans) (new : List Ev) : Prop :=
  new = old ∨ ∃ r, (r = [] ∨ ∃ l, r = [.report l]) ∧ new = r ++ .ask (if a.next = some 0 then none else a.next) :: .run clock :: old

/-- C159: a job is done when it is asked for, never early. -/
def C159_full : Prop := ∀ now target as s, run (init now target) as = some s → C159At as s ∧
  ∀ e s', step s (.go e) = some s' → Adds s.log s.clock e.ans s'.log

end Verif.Timed
