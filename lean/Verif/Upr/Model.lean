/-!
# Update periods of groups

Transcription of r_exec/group.cpp:1316-1334 and of the re-arming of update jobs
(group.cpp:655-659). Instants and durations are integers (microseconds); 64-bit overflow is not
modelled. `%` on `std::chrono` durations truncates towards zero, as `Int.tmod`.
-/
namespace Verif.Upr

/-- `Utils_MaxTime` (r_code/utils.h): the largest 64-bit instant. -/
def maxTime : Int := 2 ^ 63 - 1

/-- `Group::get_next_upr_time` (group.cpp:1316-1324). -/
def nextUprTime (reference basePeriod : Int) (upr : Nat) (now : Int) : Int :=
  if upr = 0 then maxTime
  else
    let u := upr * basePeriod
    let delta := (now - reference).tmod u
    now - delta + u

/-- `Group::get_prev_upr_time` (group.cpp:1326-1334). -/
def prevUprTime (reference basePeriod : Int) (upr : Nat) (now : Int) : Int :=
  if upr = 0 then maxTime
  else
    let u := upr * basePeriod
    let delta := (now - reference).tmod u
    now - delta

/-- The job that `Group::update` pushes when it executes the one planned at `planned`
(group.cpp:655-659): the next planned time, if any. -/
def rearm (basePeriod : Int) (upr : Nat) (planned : Int) : Option Int :=
  if upr > 0 then some (planned + upr * basePeriod) else none

/-- The planned times of the updates of a group that starts at `now` (mem.cpp:502), as long as its
update period is not changed; the `k`-th. -/
def plannedTime (reference basePeriod : Int) (upr : Nat) (now : Int) : Nat → Option Int
  | 0 => some (nextUprTime reference basePeriod upr now)
  | k + 1 => (plannedTime reference basePeriod upr now k).bind (rearm basePeriod upr)

end Verif.Upr
