import Verif.Simout.Model
/-!
# What is wanted of outcomes of goals in simulations (C179)

"report the simulated outcome: this will inject a simulated prediction of the outcome, to allow any g-monitor deciding on this ground"
(`/repo/r_exec/g_monitor.cpp:300, 408, 553`).
-/
namespace Verif.Simout

/-- A simulation of the root is among the simulations. -/
def Within (root : Nat) (sims : List Sim) : Prop := ∃ s ∈ sims, s.root = root

instance (root : Nat) (sims : List Sim) : Decidable (Within root sims) := inferInstanceAs (Decidable (∃ s ∈ sims, s.root = root))

/-- The outcome of its goal that a monitor is shown, and by what; with the times, the confidence and the simulations that what is told is to
have.  A monitor of a goal is shown it by a prediction in a simulation of its controller; a monitor of a requirement by a prediction in a
simulation of the root of its goal, whether or not the requirement is met. -/
def shown (m : Mon) : Event → Option (Bool × Option (Nat × Int × Int × Nat) × List Sim)
  | .input (.pred id t sims) _ =>
    if m.kind = .g ∧ Within m.me sims ∧ t.about = .object ∧ t.ev ≠ .fail then
      some (t.ev = .pos, some (id, t.after, t.before, t.cfd), sims)
    else none
  | .signal sims met => if (m.kind = .r ∨ m.kind = .sr) ∧ Within m.root sims then some (met, none, sims) else none
  | _ => none

/-- What is told is what was shown. -/
def Tells (m : Mon) (x : Bool × Option (Nat × Int × Int × Nat) × List Sim) (t : Told) : Prop :=
  t.goal = m.goal ∧ t.success = x.1 ∧ t.sims = x.2.2 ∧ ∀ q, x.2.1 = some q → (t.evidence, t.after, t.before, t.cfd) = q

/-- The simulation of a monitor is over: by time, with the goal, or with evidence of the goal. -/
def Ends (m : Mon) : Event → Prop
  | .time => True
  | .invalidated => True
  | .input (.actual f ground) _ => m.kind = .g ∧ (ground = true ∨ f.ev ≠ .fail)
  | .signal sims met => m.kind = .r ∧ ¬ Within m.root sims ∧ met = true
  | _ => False

instance (m : Mon) : DecidablePred (Ends m) := fun e => by
  cases e with
  | input i w => cases i <;> unfold Ends <;> infer_instance
  | _ => unfold Ends; infer_instance

/-- What was shown while simulating. -/
def allShown (m : Mon) : List Event → List (Bool × Option (Nat × Int × Int × Nat) × List Sim)
  | [] => []
  | e :: es => if Ends m e then [] else (shown m e).toList ++ allShown m es

/-- Monitors there are: other controllers than those of models at the top level for all but those of goals. -/
def Mon.Made (m : Mon) : Prop := m.ctl = .top → m.kind = .g

/-- States in which simulations begin: the goal was injected, or there is a predicted evidence. -/
def Begins (s : State) : Prop := s.invalid = false ∧ s.simulating = true ∧ s.gone = false ∧ (s.injected = !s.predicted)

/-- One by one. -/
def Each {α β : Type} (R : α → β → Prop) : List α → List β → Prop
  | [], [] => True
  | a :: as, b :: bs => R a b ∧ Each R as bs
  | _, _ => False

/-- C179: all outcomes that are shown are told, in order, and nothing else is. -/
def C179_full : Prop :=
  ∀ (m : Mon) (s : State) (es : List Event), m.Made → Begins s →
    ∃ ts, run m s es = some ts ∧ Each (Tells m) (allShown m es) ts

end Verif.Simout
