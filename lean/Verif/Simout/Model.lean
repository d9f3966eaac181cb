/-!
# Outcomes of goals in simulations

Transcription of what the monitors of goals do while they simulate: `GMonitor::reduce` and `update` (`/repo/r_exec/g_monitor.cpp:265-379`),
`RMonitor::signal`, `reduce` and `update` (400-469), `SGMonitor::reduce` and `update` (524-574), `SRMonitor::signal`, `reduce` and
`update` (592-648), as far as `register_simulated_goal_outcome` is concerned, and of that function, for controllers of models
at the top level and for others (`/repo/r_exec/mdl_controller.cpp:1448-1474, 2481-2499`).

Outcomes of goals that are gathered are the subject of `Verif.Commit` (C124, C126), what is done when no longer simulating that of
`Verif.Monitors`.  The simulations of a prediction are listed in the order in which the loops meet them (`Verif.Sims`, C34).
Evidence is a datum of the input (C16), so is whether a requirement is met.
-/
namespace Verif.Simout

/-- The class of the controller of a monitor. -/
inductive Ctl where
  | top | primary
deriving DecidableEq

inductive Kind where
  | g | r | sg | sr
deriving DecidableEq

/-- A simulation and its root. -/
structure Sim where
  id : Nat
  root : Nat
deriving DecidableEq

inductive Match where
  | pos | neg | fail
deriving DecidableEq

/-- What a fact is about: the success of a goal, the success of something else, or another object. -/
inductive About where
  | goalSuccess | otherSuccess | object
deriving DecidableEq

/-- A fact, and what it is as evidence of the target of the goal. -/
structure Fact where
  id : Nat
  about : About
  ev : Match
  after : Int
  before : Int
  cfd : Nat
deriving DecidableEq

/-- An input: a prediction of a fact, or a fact. -/
inductive Input where
  | pred (id : Nat) (target : Fact) (sims : List Sim)
  | actual (f : Fact) (groundInvalidated : Bool)
deriving DecidableEq

/-- The evidence that is reported: a prediction, or a fact that is none; or `NULL`. -/
inductive Evidence where
  | pred (id : Nat) (target : Fact) (sims : List Sim)
  | fact (id : Nat)
  | null
deriving DecidableEq

/-- `(fact (pred (fact (success goal evidence)) sims))`, in the primary group. -/
structure Told where
  goal : Nat
  success : Bool
  evidence : Nat
  after : Int
  before : Int
  cfd : Nat
  sims : List Sim
deriving DecidableEq

/-- A monitor: of which class, of which controller, for which goal, and the root of the simulation of the goal. -/
structure Mon where
  kind : Kind
  ctl : Ctl
  me : Nat
  goal : Nat
  root : Nat

/-- `inject_simulated_goal_success` (mdl_controller.cpp:1448-1470): `none` where `evidence->get_pred()` is `NULL`, or `evidence` is. -/
def inject (goal : Nat) (success : Bool) : Evidence → Option (List Told)
  | .pred id t sims => some [⟨goal, success, id, t.after, t.before, t.cfd, sims⟩]
  | .fact _ => none
  | .null => none

/-- `register_simulated_goal_outcome` (1472-1474, 2481-2499). -/
def register (c : Ctl) (goal : Nat) (success : Bool) (e : Evidence) : Option (List Told) :=
  match c with
  | .top => inject goal success e
  | .primary =>
    -- "A View is created, but nothing is done with it."
    some []

/-- `get_simulation(root)`. -/
def inSim (root : Nat) (sims : List Sim) : Bool := sims.any fun s => s.root == root

structure State where
  invalid : Bool := false
  simulating : Bool := true
  injected : Bool := true
  predicted : Bool := false
  gone : Bool := false
deriving DecidableEq

/-- What happens: an input (`wrong`: the predicted evidence is invalidated by then), a signal of a prediction of a requirement with the
answer of `check_simulated_imdl`, the time of the monitor, the invalidation of the goal. -/
inductive Event where
  | input (i : Input) (wrong : Bool)
  | signal (sims : List Sim) (met : Bool)
  | time
  | invalidated
deriving DecidableEq

/-- `GMonitor::reduce` (g_monitor.cpp:265-360). -/
def reduceG (m : Mon) (s : State) (i : Input) (wrong : Bool) : Option (State × List Told) :=
  if s.invalid then some ({ s with gone := true }, [])
  else if !s.injected && s.predicted && wrong then some ({ s with predicted := false, injected := true }, [])
  else
    match i with
    | .pred id t sims =>
      if s.simulating then
        if inSim m.me sims then
          match t.about with
          | .goalSuccess => some (s, [])
          | .otherSuccess => some (s, [])
          | .object =>
            match t.ev with
            | .pos => (register m.ctl m.goal true (.pred id t sims)).map fun o => (s, o)
            | .neg => (register m.ctl m.goal false (.pred id t sims)).map fun o => (s, o)
            | .fail => some (s, [])
        else some (s, [])
      else some (s, [])
    | .actual f ground =>
      if ground then some ({ s with invalid := true, gone := true }, [])
      else
        match f.ev with
        | .pos => some ({ s with gone := true }, [])
        | .neg => some ({ s with gone := true }, [])
        | .fail => some (s, [])

/-- `RMonitor::reduce` and `SRMonitor::reduce` (420-450, 612-640): outcomes are only gathered. -/
def reduceR (s : State) : State × List Told := if s.invalid then ({ s with gone := true }, []) else (s, [])

/-- `SGMonitor::reduce` (524-566): `_input` is reported, the target of the prediction. -/
def reduceSG (m : Mon) (s : State) (i : Input) : Option (State × List Told) :=
  if s.invalid then some ({ s with gone := true }, [])
  else
    let report (f : Fact) : Option (State × List Told) :=
      match f.ev with
      | .pos => (register m.ctl m.goal true (.fact f.id)).map fun o => (s, o)
      | .neg => (register m.ctl m.goal false (.fact f.id)).map fun o => (s, o)
      | .fail => some (s, [])
    match i with
    | .pred _ t sims => if inSim m.me sims && t.about == .goalSuccess then some (s, []) else report t
    | .actual f _ => report f

/-- `RMonitor::signal` (400-418), as far as simulations go: the goal itself is the evidence, or nothing is. -/
def signalR (m : Mon) (s : State) (sims : List Sim) (met : Bool) : Option (State × List Told) :=
  if s.invalid then some ({ s with gone := true }, [])
  else if s.simulating && inSim m.root sims then
    (register m.ctl m.goal met (if met then .fact m.goal else .null)).map fun o => (s, o)
  else if met then some ({ s with gone := true }, []) else some (s, [])

/-- `SRMonitor::signal` (592-610). -/
def signalSR (m : Mon) (s : State) (sims : List Sim) (met : Bool) : Option (State × List Told) :=
  if s.invalid then some ({ s with gone := true }, [])
  else if met then
    (if inSim m.root sims then register m.ctl m.goal true (.fact m.goal) else register m.ctl m.goal false .null).map fun o => (s, o)
  else some (s, [])

/-- `update` (362-379, 452-469, 568-574, 642-648). -/
def update (m : Mon) (s : State) : State :=
  if s.invalid then { s with gone := true }
  else
    match m.kind with
    | .g | .r => if s.simulating then { s with simulating := false } else { s with gone := true }
    | .sg | .sr => { s with gone := true }

def step (m : Mon) (s : State) : Event → Option (State × List Told)
  | .time => some (update m s, [])
  | .invalidated => some ({ s with invalid := true }, [])
  | .input i wrong =>
    match m.kind with
    | .g => reduceG m s i wrong
    | .sg => reduceSG m s i
    | .r | .sr => some (reduceR s)
  | .signal sims met =>
    match m.kind with
    | .r => signalR m s sims met
    | .sr => signalSR m s sims met
    | .g | .sg => some (s, [])

/-- A history of a monitor: what was told. -/
def run (m : Mon) : State → List Event → Option (List Told)
  | _, [] => some []
  | s, e :: es =>
    if s.gone then some []
    else (step m s e).bind fun (s', o) => (run m s' es).map fun os => o ++ os

end Verif.Simout
