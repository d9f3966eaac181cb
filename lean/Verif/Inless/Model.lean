/-!
# Input-less programs

Transcription of `InputLessPGMController::signal_input_less_pgm` (`/repo/r_exec/pgm_controller.cpp:110-141`), of
`InputLessPGMSignalingJob::update` and `SignalingJob::is_alive` (`/repo/r_exec/time_job.cpp:141-181`), of
`Group::_update_activation` (`/repo/r_exec/group.cpp:734-769`) and of the pushing of signalling jobs in
`Group::update` (637-656), `Group::inject` (952-961) and `_Mem::start` (`/repo/r_exec/mem.cpp:463-476`), for one
controller.

The threads that hold signalling jobs check that the controller is alive without a lock (time_core.cpp:103, 177,
189; time_job.cpp:178) and then wait for the lock of the controller; checking and running are steps of their own.
What the program produces is left out (`Verif.Keep`, `Verif.Prods`); a run counts whether or not it produces
anything.  The controller has its overlay for as long as it lives (pgm_controller.cpp:103-106: one is made, none is removed).
Times are numbers of microseconds.
-/
namespace Verif.Inless

/-- The time scope; `run_once_` (pgm_controller.cpp:92-95). -/
structure Pgm where
  tsc : Nat
  once : Bool
deriving DecidableEq, Repr

/-- What happens: the program is registered as newly active; it runs, and its controller is then alive, or is not. -/
inductive Ev
  | start (t : Nat)
  | run (t : Nat) (alive : Bool)
deriving DecidableEq, Repr

/-- `view`: the view is active in the group; `group`: the group is c-active and c-salient; `jobs`: the times of the signalling
jobs in the queue or in a delegate; `inside`: the number of threads that have found the controller alive and wait for its lock. -/
structure State where
  now : Nat
  activated : Bool
  invalidated : Bool := false
  view : Bool
  group : Bool
  jobs : List Nat
  inside : Nat := 0
  log : List Ev
deriving DecidableEq, Repr

/-- controller.h:139. -/
def State.alive (s : State) : Bool := !s.invalidated && s.activated

/-- The group pushes a signalling job (group.cpp:645-649, 957-959; mem.cpp:471-474). -/
def State.begin (p : Pgm) (s : State) : State :=
  { s with activated := true, jobs := s.jobs ++ [s.now + p.tsc], log := .start s.now :: s.log }

/-- group.cpp:952-961: the controller is made when the view is injected. -/
def inject (p : Pgm) (now : Nat) (view group : Bool) : State :=
  let s : State := { now := now, activated := false, view := view, group := group, jobs := [], log := [] }
  if view && group then s.begin p else s

/-- `_update_activation` (group.cpp:734-769) and, when the group is c-active and c-salient, the pushing of jobs for the newly active
(637-656). -/
def update (p : Pgm) (s : State) (view group : Bool) : State :=
  let s' := { s with view := view, group := group }
  if s.group then
    if !group then { s' with activated := false }
    else if !s.view then
      if view then s'.begin p else s'
    else if !view then { s' with activated := false }
    else s'
  else if group then
    if view then s'.begin p else s'
  else s'

/-- `signal_input_less_pgm` (pgm_controller.cpp:110-141). -/
def signal (p : Pgm) (s : State) : State :=
  { s with
    inside := s.inside - 1
    log := .run s.now s.alive :: s.log
    jobs := if !p.once && s.alive && s.group then s.jobs ++ [s.now + p.tsc] else s.jobs
    invalidated := s.invalidated || p.once }

/-- A thread looks at a job: it drops it if the controller is dead, at any time; it goes on with it if it is due. -/
def take (s : State) (k : Nat) : Option State :=
  (s.jobs[k]?).bind fun t =>
    if !s.alive then some { s with jobs := s.jobs.eraseIdx k }
    else if t ≤ s.now then some { s with jobs := s.jobs.eraseIdx k, inside := s.inside + 1 }
    else none

/-- `early`: the group is found to be c-active and c-salient, or not, when an existing object is injected (group.cpp:1069-1070), or in an
update that leaves the view alone (592-597).  `kill`: the view goes (view.cpp:104-108). -/
inductive Act
  | tick (d : Nat)
  | update (view group : Bool)
  | early (group : Bool)
  | take (k : Nat)
  | signal
  | kill
deriving DecidableEq, Repr

def step (p : Pgm) (s : State) : Act → Option State
  | .tick d => some { s with now := s.now + d }
  | .update v g => some (update p s v g)
  | .early g => some { s with group := g }
  | .take k => take s k
  | .signal => if s.inside = 0 then none else some (signal p s)
  | .kill => some { s with invalidated := true }

def run (p : Pgm) (s : State) : List Act → Option State
  | [] => some s
  | a :: as => (step p s a).bind fun s => run p s as

end Verif.Inless
