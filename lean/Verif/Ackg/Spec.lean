import Verif.Ackg.Model
/-!
# What is wanted of the outcome of a goal (C180)
-/
namespace Verif.Ackg

/-- What an input shows of a goal, if anything: it is the same at the same time, or a fact that excludes it then.  A goal that something is
absent is reached by the latter. -/
def shows (g : Goal) (e : Ev) : Option Bool :=
  if e.rel = .same ∧ e.overlap = true then some (e.fact != g.anti)
  else if e.rel = .counter ∧ e.fact = true ∧ e.inclusive = true then some g.anti
  else none

/-- The outcome by an event: what is shown, or a failure with the time. -/
def outcome (g : Goal) : Event → Option (Bool × Option Nat)
  | .seen e => (shows g e).map fun b => (b, some e.id)
  | .time => some (false, none)
  | _ => none

/-- The outcome by the first event that decides. -/
def wanted (g : Goal) (es : List Event) : Option (Bool × Option Nat) := es.findSome? (outcome g)

/-- C180: once it is decided, a goal has one outcome, the one that was decided; whatever comes later, whoever else knows. -/
def C180_full : Prop :=
  ∀ (g : Goal) (tpx : Bool) (es : List Event), (run g { tpx } es).outs = (wanted g es).toList

/-- A fact by which a goal that something is absent is reached. -/
def Excludes (g : Goal) (e : Ev) : Prop := g.anti = true ∧ e.fact = true ∧ shows g e = some true

/-- The input is one by which a goal that something is absent is reached. -/
def Handed (g : Goal) : Event → Prop
  | .seen e => Excludes g e
  | _ => False

/-- No prediction came true by which a goal that something is absent is reached. -/
def Quiet (g : Goal) : Event → Prop
  | .predicted e _ => ¬ Excludes g e
  | _ => True

/-- The success has what is expected of it. -/
def Expected (r : Option Rdx) : Prop := ∃ x, r = some x ∧ x.isRdx = true ∧ 2 ≤ x.inputs ∧ x.reqRdx = true

end Verif.Ackg
