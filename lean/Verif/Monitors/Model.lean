import Verif.Evidence.Model
/-!
# Goal, requirement and prediction monitors

`GMonitor` and `RMonitor` (r_exec/g_monitor.cpp:95-116, 169-190, 265-380, 383-470), `PMonitor`
(r_exec/p_monitor.cpp:94-173), `Monitor::is_alive` (monitor.cpp:103-106), the jobs that drive them
(time_job.h:207-234, time_core.cpp:91-151, 165-206) and the controller lists that feed them
(mdl_controller.cpp:363-404, 1136-1166, 1193-1211, 1549-1567).

One monitor is followed through its life. An input is what the monitor asks about it: the answer of
`is_evidence`, whether it is a fact, whether it refutes the ground, the confidence. Times are
microseconds as naturals. What is left out: the solutions gathered during the simulation and
`commit` (no outcome is registered there), the objects that the outcome is wrapped in, and the
monitors for simulated goals, which register no outcome either.

The one shared flag of a monitor is `target_->is_invalidated()`. `reduce` and `signal` run on a
reduction core under the lock of the list; `update` runs on a time core without a lock. Every step
takes the value of the flag that it read when it started as an argument, so that both uninterrupted
steps and interleaved ones can be run.
-/
namespace Verif.Monitors
open Verif.Evidence (MatchResult)

/-- `GMonitor` or `RMonitor`. -/
inductive Kind | goal | req
  deriving DecidableEq, Repr

/-- The constructor arguments of a monitor (g_monitor.cpp:95-116, 169-190, 383-398): the deadline,
the end of the simulation, the time of construction, whether the target of the goal is an anti-fact
and the confidence of a predicted evidence known at that time. -/
structure Params where
  kind : Kind
  deadline : Nat
  simThz : Nat
  birth : Nat
  antiTarget : Bool
  predicted : Option Nat
  deriving DecidableEq, Repr

/-- What `reduce` sees of a simulated prediction (g_monitor.cpp:283-312): the outcome of a goal, an
outcome of something else, or any other object. -/
inductive SimObj | goalOutcome | otherOutcome | object
  deriving DecidableEq, Repr

/-- An input as `reduce` sees it. -/
inductive Inp
  /-- an actual fact: refutes the ground (`Goal::ground_invalidated`), `is_evidence`, `is_fact`. -/
  | actual (groundInv : Bool) (ev : MatchResult) (isFact : Bool)
  /-- a prediction: its simulation, if any, `is_evidence` and confidence of its target. -/
  | predicted (sim : Option SimObj) (ev : MatchResult) (cfd : Nat)
  deriving DecidableEq, Repr

/-- One call of `register_goal_outcome` (mdl_controller.cpp:1380-1427, 2432-2481). -/
structure Report where
  success : Bool
  time : Nat
  evidence : Bool
  deriving DecidableEq, Repr

/-- A goal monitor with its surroundings. `inv`: the goal is invalidated. `ctl`: the controller is
neither invalidated nor deactivated. `listed`: in the list of the controller. `jobs`: the target
times of the pending jobs that hold the monitor. `outs`: the outcomes registered, the latest first.
`fresh`: new goals made after a predicted failure of a reached goal (mdl_controller.cpp:1222-1235).
-/
structure State where
  clock : Nat
  inv : Bool
  ctl : Bool
  simulating : Bool
  injected : Bool
  pev : Option (Nat × Bool)
  listed : Bool
  jobs : List Nat
  outs : List Report
  fresh : Nat
  deriving DecidableEq, Repr

/-- Construction (g_monitor.cpp:117, 187-189): one job at the end of the simulation, or at the
deadline when there is none; `RMonitor` goes through that constructor and pushes another job
(g_monitor.cpp:396-397). The jobs of both types call the same virtual `update`. -/
def init (p : Params) : State :=
  let simulating := decide (p.birth < p.simThz)
  let j := if simulating then p.simThz else p.deadline
  { clock := p.birth, inv := false, ctl := true, simulating := simulating,
    injected := p.predicted.isNone, pev := p.predicted.map fun c => (c, false), listed := true,
    jobs := match p.kind with
      | .goal => [j]
      | .req => [j, p.deadline],
    outs := [], fresh := 0 }

/-- `register_goal_outcome` (mdl_controller.cpp:1380-1382, 2432-2434): invalidates the goal and
notifies. -/
def register (s : State) (success evidence : Bool) : State :=
  { s with inv := true, outs := ⟨success, s.clock, evidence⟩ :: s.outs }

/-- `register_predicted_goal_outcome` (mdl_controller.cpp:1211-1239). -/
def registerPredicted (s : State) (success injected : Bool) : State :=
  if success then { s with inv := true }
  else if !injected then s
  else if s.inv then { s with fresh := s.fresh + 1 } else s

/-- Lines 272 and 274: the goal was not injected because of a predicted evidence, and that evidence
turned out to be wrong. -/
def misled (s : State) : Bool :=
  !s.injected && match s.pev with
    | some (_, refuted) => refuted
    | none => false

/-- The part of `GMonitor::reduce` for a prediction outside a simulation (g_monitor.cpp:316-331). -/
def reducePredicted (s : State) (ev : MatchResult) (cfd : Nat) : State × Bool :=
  match ev with
  | .positive =>
    let s1 := if s.injected then registerPredicted s true true else s
    ({ s1 with pev := match s1.pev with
        | some (c, d) => if c < cfd then some (cfd, false) else some (c, d)
        | none => none }, false)
  | .negative =>
    let s1 := { registerPredicted s false s.injected with pev := none, injected := true }
    (s1, s1.inv)
  | .failure => (s, false)

/-- The part of `GMonitor::reduce` for an actual fact (g_monitor.cpp:332-357). -/
def reduceActual (p : Params) (s : State) (groundInv : Bool) (ev : MatchResult) (isFact : Bool) :
    State × Bool :=
  if groundInv then ({ s with inv := true }, true)
  else
    match ev with
    | .positive =>
      if isFact && p.antiTarget then (s, true) else (register s true true, true)
    | .negative => (register s false true, true)
    | .failure => (s, false)

/-- `GMonitor::reduce` (g_monitor.cpp:265-360), `saw` being the flag read on line 267. During a
simulation predictions only make simulated outcomes (283-314). -/
def reduce (p : Params) (saw : Bool) (s : State) (i : Inp) : State × Bool :=
  if saw then (s, true)
  else if misled s then
    ({ registerPredicted s false s.injected with pev := none, injected := true }, false)
  else
    match i with
    | .predicted _ ev cfd => if s.simulating then (s, false) else reducePredicted s ev cfd
    | .actual groundInv ev isFact => reduceActual p s groundInv ev isFact

/-- `RMonitor::signal` (g_monitor.cpp:400-418), `sim`: the prediction is simulated, `ok`: the answer
of `check_imdl` (mdl_controller.cpp:2261-2283), which registers nothing. -/
def signal (saw : Bool) (s : State) (sim ok : Bool) : State × Bool :=
  if saw then (s, true)
  else if s.simulating && sim then (s, false)
  else (s, ok)

/-- `GMonitor::update` and `RMonitor::update` (g_monitor.cpp:362-379, 452-469), which differ only in
the list: the new state and the next target, zero being none. -/
def update (p : Params) (saw : Bool) (s : State) : State × Nat :=
  if saw then ({ s with listed := false }, 0)
  else if s.simulating then ({ s with simulating := false }, p.deadline)
  else ({ register s false false with listed := false }, 0)

/-- What happens around a monitor, after a delay `dt`. -/
inductive Ev
  /-- `monitor_goals` (mdl_controller.cpp:1193-1209) on an input. -/
  | input (dt : Nat) (i : Inp)
  /-- the signal to the requirement monitors (mdl_controller.cpp:1549-1564). -/
  | signal (dt : Nat) (sim ok : Bool)
  /-- a core runs the `k`-th pending job (time_core.cpp:91-151, 165-206). -/
  | fire (dt : Nat) (k : Nat)
  /-- the goal is invalidated by somebody else. -/
  | gone (dt : Nat)
  /-- the controller is switched off or on. -/
  | power (dt : Nat) (on : Bool)
  /-- the predicted evidence is invalidated. -/
  | refute (dt : Nat)
  deriving DecidableEq, Repr

/-- The delay of an event. -/
def Ev.dt : Ev → Nat
  | .input d _ | .signal d _ _ | .fire d _ | .gone d | .power d _ | .refute d => d

/-- One event, `saw` being the flag that its code read first. A job runs when it is due and its
monitor is alive (time_core.cpp:103-106, 177-178; monitor.cpp:103-106); a next target makes the core
keep the job for that time. -/
def act (p : Params) (saw : Bool) (s0 : State) (e : Ev) : State :=
  let s := { s0 with clock := s0.clock + e.dt }
  match e with
  | .input _ i =>
    if p.kind = .goal ∧ s.listed then
      let r := reduce p saw s i
      { r.1 with listed := !r.2 }
    else s
  | .signal _ sim ok =>
    if p.kind = .req ∧ s.listed then
      if !s.ctl then { s with listed := false }
      else
        let r := signal saw s sim ok
        { r.1 with listed := !r.2 }
    else s
  | .fire _ k =>
    match s.jobs[k]? with
    | none => s
    | some j =>
      if s.clock < j then s
      else if !s.ctl || saw then { s with jobs := s.jobs.eraseIdx k }
      else
        let r := update p saw { s with jobs := s.jobs.eraseIdx k }
        if r.2 = 0 then r.1 else { r.1 with jobs := r.1.jobs ++ [r.2] }
  | .gone _ => { s with inv := true }
  | .power _ on => { s with ctl := on }
  | .refute _ => { s with pev := s.pev.map fun c => (c.1, true) }

/-- Uninterrupted events. -/
def step (p : Params) (s : State) (e : Ev) : State := act p s.inv s e
def run (p : Params) (es : List Ev) : State := es.foldl (step p) (init p)

/-- A step of one of several cores: it reads the flag, or it goes on with the value it read last. -/
inductive Phase | look (core : Nat) | act (core : Nat) (e : Ev)

/-- An interleaving. -/
def fineStep (p : Params) (c : State × (Nat → Bool)) : Phase → State × (Nat → Bool)
  | .look k => (c.1, fun x => if x = k then c.1.inv else c.2 x)
  | .act k e => (act p (c.2 k) c.1 e, c.2)
def fine (p : Params) (ph : List Phase) : State :=
  (ph.foldl (fineStep p) (init p, fun _ => false)).1

/-- An interleaving in which every step reads the flag right before it goes on. -/
def interleave (es : List Ev) : List Phase := es.flatMap fun e => [.look 0, .act 0 e]

/-! ## Prediction monitors -/

/-- An input of a prediction monitor: refutes a ground (`Pred::grounds_invalidated`), the answer of
`is_evidence`, and for a prediction whether it is more certain than the monitored one. -/
inductive PInp
  | actual (groundInv : Bool) (ev : MatchResult)
  | predicted (groundInv : Bool) (ev : MatchResult) (stronger : Bool)
  deriving DecidableEq, Repr

/-- `PMonitor` construction (p_monitor.cpp:94-107). `primary`: the controller is a
`PrimaryMDLController`, whose `register_pred_outcome` invalidates the prediction
(mdl_controller.cpp:2358-2360), which the one of `SecondaryMDLController` does not (2863-2866).
`deadline`: the end of the target plus the tolerance. -/
structure PParams where
  primary : Bool
  deadline : Nat
  birth : Nat
  rateFailures : Bool
  factTarget : Bool
  deriving DecidableEq, Repr

/-- A prediction monitor. `outs`: the calls of `register_pred_outcome`, the latest first. -/
structure PState where
  clock : Nat
  inv : Bool
  ctl : Bool
  listed : Bool
  job : Bool
  outs : List Report
  deriving DecidableEq, Repr

def pinit (p : PParams) : PState :=
  { clock := p.birth, inv := false, ctl := true, listed := true, job := true, outs := [] }

/-- `register_pred_outcome` (mdl_controller.cpp:2359-2404, 2863-2866). -/
def pregister (p : PParams) (s : PState) (success evidence : Bool) : PState :=
  { s with inv := s.inv || p.primary, outs := ⟨success, s.clock, evidence⟩ :: s.outs }

/-- `PMonitor::reduce` (p_monitor.cpp:112-155). -/
def preduce (p : PParams) (saw : Bool) (s : PState) (i : PInp) : PState × Bool :=
  if saw then (s, true)
  else
    match i with
    | .predicted groundInv ev stronger =>
      if groundInv then ({ s with inv := true }, true)
      else
        match ev with
        | .positive => (s, false)
        | .negative => if stronger then ({ s with inv := true }, true) else (s, false)
        | .failure => (s, false)
    | .actual groundInv ev =>
      if groundInv then ({ s with inv := true }, true)
      else
        match ev with
        | .positive => (pregister p s true true, true)
        | .negative => if p.rateFailures then (pregister p s false true, true) else (s, true)
        | .failure => (s, false)

/-- `PMonitor::update` (p_monitor.cpp:157-171). -/
def pupdate (p : PParams) (saw : Bool) (s : PState) : PState :=
  { (if !saw && (p.rateFailures && p.factTarget) then pregister p s false false else s) with
    listed := false }

inductive PEv
  | input (dt : Nat) (i : PInp)
  | fire (dt : Nat)
  | gone (dt : Nat)
  | power (dt : Nat) (on : Bool)
  deriving DecidableEq, Repr

def PEv.dt : PEv → Nat
  | .input d _ | .fire d | .gone d | .power d _ => d

/-- One event; the list is walked by `monitor_predictions` (mdl_controller.cpp:370-391). -/
def pact (p : PParams) (saw : Bool) (s0 : PState) (e : PEv) : PState :=
  let s := { s0 with clock := s0.clock + e.dt }
  match e with
  | .input _ i =>
    if s.listed then
      let r := preduce p saw s i
      { r.1 with listed := !r.2 }
    else s
  | .fire _ =>
    if s.job then
      if s.clock < p.deadline then s
      else if !s.ctl || saw then { s with job := false }
      else pupdate p saw { s with job := false }
    else s
  | .gone _ => { s with inv := true }
  | .power _ on => { s with ctl := on }

def pstep (p : PParams) (s : PState) (e : PEv) : PState := pact p s.inv s e
def prun (p : PParams) (es : List PEv) : PState := es.foldl (pstep p) (pinit p)

inductive PPhase | look (core : Nat) | act (core : Nat) (e : PEv)

def pfineStep (p : PParams) (c : PState × (Nat → Bool)) : PPhase → PState × (Nat → Bool)
  | .look k => (c.1, fun x => if x = k then c.1.inv else c.2 x)
  | .act k e => (pact p (c.2 k) c.1 e, c.2)
def pfine (p : PParams) (ph : List PPhase) : PState :=
  (ph.foldl (pfineStep p) (pinit p, fun _ => false)).1

/-- What a registered outcome does to the success rate of the model: the secondary controller only
counts successes (mdl_controller.cpp:2868-2870); the primary one counts both (2358-2430). -/
def rated (p : PParams) (s : PState) : List Report :=
  s.outs.filter fun r => p.primary || r.success

end Verif.Monitors
