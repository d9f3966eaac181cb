/-!
# Performance statistics

Transcription of `_Mem::register_reduction_job_latency`, `register_time_job_latency` and
`inject_perf_stats` (`/repo/r_exec/mem.cpp:1074-1125`).  Latencies are microseconds (`int64`, here
integers); division truncates towards zero, as in C++.  The `Perf` object is its four members.
-/
namespace Verif.Perf

/-- `..._job_count_`, `..._job_avg_latency_`, `_..._job_avg_latency_` of one kind of jobs. -/
structure Counter where
  count : Nat
  avg : Int
  prev : Int
deriving DecidableEq, Repr

structure St where
  red : Counter
  time : Counter
deriving DecidableEq, Repr

/-- mem.cpp:198-200. -/
def init : St := ⟨⟨0, 0, 0⟩, ⟨0, 0, 0⟩⟩

/-- mem.cpp:1077-1078, 1084-1085. -/
def Counter.register (c : Counter) (latency : Int) : Counter :=
  { c with count := c.count + 1, avg := c.avg + latency }

/-- mem.cpp:1093-1099 / 1101-1107: the new average and its change. -/
def Counter.compute (c : Counter) : Int × Int :=
  if c.count > 0 then (c.avg.tdiv c.count, c.avg.tdiv c.count - c.prev) else (0, 0)

/-- ... with "reset stats" (mem.cpp:1112-1114). -/
def Counter.sample (c : Counter) : Counter := ⟨0, c.compute.1, c.compute.1⟩

/-- The members of the `Perf` object. -/
structure Report where
  red : Int
  dRed : Int
  time : Int
  dTime : Int
deriving DecidableEq, Repr

inductive Op
  | red (latency : Int)
  | time (latency : Int)
  | sample
deriving DecidableEq, Repr

def step (s : St) : Op → St × Option Report
  | .red l => ({ s with red := s.red.register l }, none)
  | .time l => ({ s with time := s.time.register l }, none)
  | .sample => (⟨s.red.sample, s.time.sample⟩,
      some ⟨s.red.compute.1, s.red.compute.2, s.time.compute.1, s.time.compute.2⟩)

/-- A whole run: the reports made. -/
def run (s : St) : List Op → List Report
  | [] => []
  | op :: l => (step s op).2.toList ++ run (step s op).1 l

/-- The state after a run. -/
def after (s : St) : List Op → St
  | [] => s
  | op :: l => after (step s op).1 l

end Verif.Perf
