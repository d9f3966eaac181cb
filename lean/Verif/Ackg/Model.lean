/-!
# The outcome of a goal that something is absent

Transcription of what `GMonitor::reduce` does with actual inputs (`/repo/r_exec/g_monitor.cpp:265-268, 332-360`) and of `GMonitor::update`
(362-379), of `_Fact::is_evidence` (`/repo/r_exec/factory.cpp:441-463`), and of `GTPX::ack_pred_success`
(`/repo/r_exec/pattern_extractor.cpp:580-626`) with `AutoFocusController::notify` and `dispatch_pred_success`
(`/repo/r_exec/auto_focus.cpp:259-274`, called from 353-368).

The monitor does not simulate any more, its goal was injected and the ground of the goal holds: the rest is the subject of
`Verif.Monitors` (C48), in which goals have no pattern extractors, and `Verif.Simout` (C179).  How an input stands to the target
of the goal is given with it: whether the objects match or the one is a counter-evidence of the other, and whether the times match.  The
model that `ack_pred_success` builds (612-613) and `predictions_` (625) are left out.
-/
namespace Verif.Ackg

/-- `MatchObject`, `CounterEvidence`, or neither. -/
inductive Rel where
  | same | counter | other
deriving DecidableEq, Repr

/-- An actual fact or anti-fact as it stands to the target: `match_timings_overlap` and `match_timings_inclusive`. -/
structure Ev where
  id : Nat
  fact : Bool
  rel : Rel
  overlap : Bool
  inclusive : Bool
deriving DecidableEq, Repr

inductive Match where
  | pos | neg | fail
deriving DecidableEq, Repr

/-- `is_evidence` of a target (factory.cpp:441-463); `anti`: the target is an anti-fact. -/
def isEvidence (anti : Bool) (e : Ev) : Match :=
  match e.rel with
  | .same =>
    let r : Match := if e.fact == !anti then .pos else .neg
    if e.overlap then r else .fail
  | .counter =>
    if e.fact then
      if e.inclusive then (if anti then .pos else .neg) else .fail
    else .fail
  | .other => .fail

/-- A goal: its target is an anti-fact; it has a simulation, whose root is there. -/
structure Goal where
  anti : Bool
  sim : Bool
  root : Bool
deriving DecidableEq

/-- What the success of a prediction says about the reduction (pattern_extractor.cpp:593-606): none, or whether it is a `mk.rdx`, how many
inputs there are, and whether the second is a `mk.rdx`. -/
structure Rdx where
  isRdx : Bool
  inputs : Nat
  reqRdx : Bool
deriving DecidableEq

/-- `watched`: the monitor is there.  `inv`: the goal is invalidated.  `tpx`: the pattern extractor is in `goals_` of the focus.  `outs`: the
calls of `register_goal_outcome`, in order. -/
structure State where
  watched : Bool := true
  inv : Bool := false
  tpx : Bool
  outs : List (Bool × Option Nat) := []
deriving DecidableEq

/-- An actual input of the monitor, the success of a prediction by an evidence in the focus, the time of the monitor, the
outcome of the goal in the focus. -/
inductive Event where
  | seen (e : Ev)
  | predicted (e : Ev) (r : Option Rdx)
  | time
  | heard
deriving DecidableEq

/-- `register_goal_outcome` (`/repo/r_exec/mdl_controller.cpp:1380-1427, 2432-2479`). -/
def register (s : State) (success : Bool) (evidence : Option Nat) : State :=
  { s with inv := true, outs := s.outs ++ [(success, evidence)] }

/-- `GMonitor::reduce` (g_monitor.cpp:265-268, 332-360); the monitor is removed where it returns true. -/
def seen (g : Goal) (s : State) (e : Ev) : State :=
  if s.watched then
    if s.inv then { s with watched := false }
    else
      match isEvidence g.anti e with
      | .pos =>
        -- "This will be handled by GTPX::ack_pred_success"
        if e.fact && g.anti then { s with watched := false }
        else { register s true (some e.id) with watched := false }
      | .neg => { register s false (some e.id) with watched := false }
      | .fail => s
  else s

/-- `GTPX::ack_pred_success` (pattern_extractor.cpp:580-626). -/
def ack (g : Goal) (s : State) (e : Ev) (r : Option Rdx) : State :=
  if g.anti && e.fact && isEvidence g.anti e == .pos then
    match r with
    | none => s
    | some r =>
      if !r.isRdx || r.inputs < 2 then s
      else if !r.reqRdx then s
      else if g.sim then
        if g.root then register s true (some e.id) else s
      else s
  else s

/-- `GMonitor::update` (362-379). -/
def time (s : State) : State :=
  if s.watched then
    if s.inv then { s with watched := false } else { register s false none with watched := false }
  else s

def step (g : Goal) (s : State) : Event → State
  | .seen e => seen g s e
  | .predicted e r => if s.tpx then ack g s e r else s
  | .time => time s
  -- The focus gets the outcome once there is one; it erases the extractor (auto_focus.cpp:259-267).
  | .heard => if s.outs = [] then s else { s with tpx := false }

def run (g : Goal) (s : State) (es : List Event) : State := es.foldl (step g) s

end Verif.Ackg
