/-!
# Stopping the executive

Transcription, as a transition system of threads, of `_Mem::stop`, `pop_reduction_job`, `pop_time_job`,
`start_core` and `shutdown_core` (`/repo/r_exec/mem.cpp:273-288, 694-757, 223-237`), of what `start` sets up (440-444),
of `ReductionCore::Run` (`/repo/r_exec/reduction_core.cpp:92-107`), `TimeCore::Run` and `DelegatedCore::Wait`
(`/repo/r_exec/time_core.cpp:93-151, 165-212`).

What jobs do is left out: a job is work, which ends, and which may push jobs and, in a time core, make
delegates; or it is `ShutdownReductionCore` or `ShutdownTimeCore`.  The queue and the semaphore are of a
library that is not in the repository: the queue gives its items in order and lets a core wait while it is
empty; the semaphore is of 1.  Each step below is done by one thread; all interleavings are executions.
-/
namespace Verif.Cores

inductive Job | work | quit
deriving DecidableEq, Repr

/-- Where a core is: at the head of its loop; past the test of `state_`, in `pop`; doing a job; out of the loop. -/
inductive Core | top | pop | busy (j : Job) | done
deriving DecidableEq, Repr

/-- The cores of a kind, and their queue. -/
structure Pool where
  q : List Job
  cores : List Core
deriving DecidableEq, Repr

/-- Where the thread that stops is: not there yet; pushing so many shutdown jobs for the reduction cores, for the
time cores; about to set `state_`; waiting for the time cores, for the reduction cores, for the delegates; about to
delete; returned. -/
inductive Stop | idle | pushRed (n : Nat) | pushTime (n : Nat) | mark | joinTime | joinRed | sem | free | returned
deriving DecidableEq, Repr

/-- `stopped`: `state_` is STOPPED; the pools; delegates whose thread has not come to `start_core`, and those past it;
whether one waits for the semaphore in `start_core`, holding `core_countCS_`; `core_count_`; the semaphore; the thread
that stops; whether the queues and the semaphore have been deleted; whether what was deleted has been used.  `late`, which is
not in the program, counts the jobs begun after `state_` was set. -/
structure State where
  stopped : Bool
  red : Pool
  time : Pool
  born : Nat
  live : Nat
  stuck : Bool
  count : Nat
  sem : Nat
  stop : Stop
  freed : Bool
  ub : Bool
  late : Nat
deriving DecidableEq, Repr

inductive Kind | red | time
deriving DecidableEq, Repr

/-- What a thread does next: a core goes on; a core, at work, pushes a job for the cores of a kind, or makes a delegate; a delegate enters;
a delegate, at work, pushes; a delegate leaves; the thread that stops goes on. -/
inductive Act
  | core (k : Kind) (i : Nat)
  | push (k : Kind) (i : Nat) (dest : Kind)
  | spawn (i : Nat)
  | enter
  | pushD (dest : Kind)
  | leave
  | stop
deriving DecidableEq, Repr

def State.pool (s : State) : Kind → Pool
  | .red => s.red
  | .time => s.time

def State.set (s : State) (k : Kind) (p : Pool) : State :=
  match k with
  | .red => { s with red := p }
  | .time => { s with time := p }

/-- A core goes on (reduction_core.cpp:97-104, time_core.cpp:98-149; mem.cpp:726-731, 742-747). -/
def goCore (s : State) (k : Kind) (i : Nat) : Option State :=
  let p := s.pool k
  match p.cores[i]? with
  | some .top => some (s.set k { p with cores := p.cores.set i (if s.stopped then .done else .pop) })
  | some .pop => match p.q with
    | [] => none
    | j :: q =>
      let s' := s.set k ⟨q, p.cores.set i (.busy j)⟩
      some { s' with late := if s.stopped ∧ j = .work then s.late + 1 else s.late }
  | some (.busy .work) => some (s.set k { p with cores := p.cores.set i .top })
  | some (.busy .quit) => some (s.set k { p with cores := p.cores.set i .done })
  | _ => none

/-- `push_reduction_job` and `push_time_job` (mem.cpp:733-740, 749-755). -/
def doPush (s : State) (dest : Kind) : State :=
  if s.stopped then s
  else
    let p := s.pool dest
    let s' := s.set dest { p with q := p.q ++ [.work] }
    { s' with ub := s.ub || s.freed }

/-- `start_core` (mem.cpp:273-279), at the head of `DelegatedCore::Wait`. -/
def doEnter (s : State) : Option State :=
  if s.born = 0 ∨ s.stuck then none
  else
    let s := { s with born := s.born - 1, count := s.count + 1 }
    if s.count = 1 then
      if s.sem = 1 then some { s with sem := 0, live := s.live + 1, ub := s.ub || s.freed }
      else some { s with stuck := true, ub := s.ub || s.freed }
    else some { s with live := s.live + 1 }

/-- `shutdown_core` (mem.cpp:281-287), at the end of `DelegatedCore::Wait`. -/
def doLeave (s : State) : Option State :=
  if s.live = 0 ∨ s.stuck then none
  else
    let s := { s with live := s.live - 1, count := s.count - 1 }
    if s.count = 0 then some { s with sem := 1, ub := s.ub || s.freed } else some s

/-- `stop` (mem.cpp:694-723) and `reset` (223-237). -/
def doStop (s : State) : Option State :=
  match s.stop with
  | .idle => if s.stopped then some { s with stop := .returned } else some { s with stop := .pushRed s.red.cores.length }
  | .pushRed 0 => some { s with stop := .pushTime s.time.cores.length }
  | .pushRed (n + 1) => some { s with red := { s.red with q := s.red.q ++ [.quit] }, stop := .pushRed n }
  | .pushTime 0 => some { s with stop := .mark }
  | .pushTime (n + 1) => some { s with time := { s.time with q := s.time.q ++ [.quit] }, stop := .pushTime n }
  | .mark => some { s with stopped := true, stop := .joinTime }
  | .joinTime => if s.time.cores.all (· == .done) then some { s with stop := .joinRed } else none
  | .joinRed => if s.red.cores.all (· == .done) then some { s with stop := .sem } else none
  | .sem => if s.sem = 1 then some { s with sem := 0, stop := .free } else none
  | .free => some { s with freed := true, stop := .returned }
  | .returned => none

/-- One step; `none`: the thread cannot go on. -/
def step (s : State) : Act → Option State
  | .core k i => goCore s k i
  | .push k i dest => if (s.pool k).cores[i]? = some (.busy .work) then some (doPush s dest) else none
  | .spawn i => if s.time.cores[i]? = some (.busy .work) then some { s with born := s.born + 1 } else none
  | .enter => doEnter s
  | .pushD dest => if s.live = 0 then none else some (doPush s dest)
  | .leave => doLeave s
  | .stop => doStop s

/-- As `start` leaves it, with jobs in the queues (mem.cpp:440-444, 507-519). -/
def init (nRed nTime : Nat) (jRed jTime : Nat) : State :=
  { stopped := false, red := ⟨List.replicate jRed .work, List.replicate nRed .top⟩, time := ⟨List.replicate jTime .work, List.replicate nTime .top⟩
    born := 0, live := 0, stuck := false, count := 0, sem := 1, stop := .idle, freed := false, ub := false, late := 0 }

/-- An execution. -/
def run : State → List Act → Option State
  | s, [] => some s
  | s, a :: as => match step s a with
    | none => none
    | some s => run s as

end Verif.Cores
