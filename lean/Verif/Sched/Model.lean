/-!
# The diagnostic-time loop

Transcription of `DiagnosticTimeState` (r_exec/mem.h:904-932, mem.cpp:535-686). What a job does when
it is executed (which jobs it pushes, whether it is alive, whether it asks to run again) is given
from outside, one `In` per step, so that statements range over all behaviours of all jobs.

Simplifications: the memory is RUNNING (a stopped memory makes `step` return at once); instants
are integers; executed entries of the local reduction queue are not overwritten with NULL but
counted by the index.
-/
namespace Verif.Sched

/-- A time job. `seq` is not in the code: it numbers submissions, in order. -/
structure Job where
  target : Int
  seq : Nat
  deriving DecidableEq, Repr

structure St where
  /-- `_Mem::diagnostic_time_now_` -/
  now : Int
  /-- `tick_time_` -/
  tick : Int
  /-- `mem_->get_sampling_period()` -/
  period : Int
  /-- `end_time_` -/
  endTime : Int
  /-- `pass_number_` -/
  pass : Nat
  /-- `need_diagnostic_time_tick_` -/
  need : Bool
  /-- `n_reduction_jobs_this_sampling_period_` -/
  nRed : Nat
  /-- `reduction_job_queue_` (of the DiagnosticTimeState) -/
  loc : List Nat
  /-- `reduction_job_queue_index_` -/
  idx : Nat
  /-- `ordered_time_job_queue_` -/
  ordered : List Job
  /-- `mem_->time_job_queue_` -/
  memT : List Job
  /-- `mem_->reduction_job_queue_` -/
  memR : List Nat
  /-- next submission number -/
  next : Nat
  /-- next reduction job number -/
  nextR : Nat

/-- What happens in the job (or tick callback) executed by a step. -/
structure In where
  /-- target times of the time jobs it pushes, in order -/
  pushT : List Int
  /-- number of reduction jobs it pushes -/
  pushR : Nat
  /-- `is_alive()` -/
  alive : Bool
  /-- result of `update(next_target)` -/
  cont : Bool
  /-- `next_target` after `update`; 0: not to be run again -/
  nextTarget : Int

inductive Ev
  | finished
  | reduction (j : Nat)
  | pass
  | tick
  | idle
  | dead (j : Job)
  /-- job executed at `at_`; the job it becomes if it is to run again -/
  | ran (j : Job) (at_ : Int) (again : Option Job)
  deriving DecidableEq

/-- `max_reduction_jobs_per_cycle` (mem.cpp:551). -/
def maxRed : Nat := 80000

/-- Numbered jobs with the given targets. -/
def mkJobs (start : Nat) (ts : List Int) : List Job :=
  ts.zipIdx start |>.map fun p => ⟨p.1, p.2⟩

/-- `push_time_job`, `push_reduction_job` (mem.cpp:734-741, 751-757) by the code being executed. -/
def push (s : St) (i : In) : St :=
  { s with
    memT := s.memT ++ mkJobs s.next i.pushT
    next := s.next + i.pushT.length
    memR := s.memR ++ List.range' s.nextR i.pushR
    nextR := s.nextR + i.pushR }

/-- Insertion at `upper_bound` (mem.cpp:613-616, 676-679; time_job.h:110-118): before the first
element with a greater target. (On a sorted queue the binary search finds that position.) -/
def insert (j : Job) : List Job → List Job
  | [] => [j]
  | a :: l => if j.target < a.target then j :: a :: l else a :: insert j l

/-- Mem.cpp:556-600; `inl`: the step returns here. -/
def redPhase (s : St) (i : In) : (St × Ev) ⊕ St :=
  if s.pass ≤ 100 then
    let s1 := if s.idx = 0 then { s with loc := s.loc ++ s.memR, memR := [] } else s
    let n := min s1.loc.length maxRed
    if n > 0 then
      if s1.idx < n then
        .inl (push { s1 with idx := s1.idx + 1 } i, .reduction (s1.loc.getD s1.idx 0))
      else
        let s2 := { s1 with
          idx := 0
          nRed := s1.nRed + n
          loc := if s1.loc.length > maxRed then s1.loc.drop maxRed else [] }
        if s2.nRed < maxRed then .inl ({ s2 with pass := s2.pass + 1 }, .pass) else .inr s2
    else .inr s1
  else .inr s

/-- Mem.cpp:602-617: reset the pass number, transfer the time jobs. -/
def transfer (s : St) : St :=
  { s with pass := 1, ordered := s.memT.foldl (fun q j => insert j q) s.ordered, memT := [] }

/-- No job, or the front job's target is at or after `t` (mem.cpp:625-627). -/
def noneBefore (t : Int) : List Job → Bool
  | [] => true
  | j :: _ => decide (j.target ≥ t)

/-- There is a job, and the front job's target is at or before `t` (mem.cpp:640-641). -/
def dueBy (t : Int) : List Job → Bool
  | [] => false
  | j :: _ => decide (j.target ≤ t)

/-- Mem.cpp:623-636. -/
def maybeTick (s : St) : St :=
  if !s.need && noneBefore (s.tick + s.period) s.ordered then
    { s with tick := s.tick + s.period, now := s.tick + s.period, nRed := 0, need := true }
  else s

/-- Mem.cpp:653-684: run the front job. -/
def runFront (s : St) (i : In) : St × Ev :=
  match s.ordered with
  | [] => (s, .idle)
  | j :: rest =>
    let s1 := { s with now := if j.target > s.now then j.target else s.now, ordered := rest }
    if !i.alive then (s1, .dead j)
    else if !i.cont then (push { s1 with next := s1.next + 1 } i, .ran j s1.now none)
    else if i.nextTarget ≠ 0 then
      let j' : Job := ⟨i.nextTarget, s1.next⟩
      let s2 := push { s1 with next := s1.next + 1 } i
      ({ s2 with ordered := insert j' s2.ordered }, .ran j s1.now (some j'))
    else (push { s1 with next := s1.next + 1 } i, .ran j s1.now none)

/-- Mem.cpp:619-684. -/
def timePhase (s : St) (i : In) : St × Ev :=
  let s1 := transfer s
  if s1.now ≥ s1.endTime then (s1, .finished)
  else
    let s2 := maybeTick s1
    if s2.need && !dueBy s2.tick s2.ordered then
      (push { s2 with need := false } i, .tick)
    else runFront s2 i

/-- `DiagnosticTimeState::step` (mem.cpp:547-686). -/
def step (s : St) (i : In) : St × Ev :=
  match redPhase s i with
  | .inl r => r
  | .inr s1 => timePhase s1 i

/-- State after the constructor (mem.cpp:535-545) at time `t`, the memory holding the given
jobs. -/
def init (t period runTime : Int) (ts : List Int) (rs : Nat) : St :=
  { now := t, tick := t, period := period, endTime := t + runTime, pass := 1, need := false,
    nRed := 0, loc := [], idx := 0, ordered := [], memT := mkJobs 0 ts, memR := List.range' 0 rs,
    next := ts.length, nextR := rs }

/-- The states of all runs of the loop. -/
inductive Reach (t period runTime : Int) (ts : List Int) (rs : Nat) : St → Prop
  | init : Reach t period runTime ts rs (init t period runTime ts rs)
  | step {s : St} (i : In) : Reach t period runTime ts rs s →
      Reach t period runTime ts rs (step s i).1

end Verif.Sched
