import Verif.F32.Model
/-!
# Control values of views and group statistics

Transcription of r_exec/view.h, view.inline.cpp, view.cpp and the statistics part of
r_exec/group.cpp. Numbers are rationals, computed in an arithmetic `A` (`F32.exact` or
`F32.single`). `uint32` counters are natural numbers (no wrap-around).
-/
namespace Verif.ViewCtl
open Verif.F32

/-- One of saliency, activation, visibility: value in the code, `acc_*_`, `*_changes_`
(view.h:105-110). -/
structure Chan where
  val : Rat
  acc : Rat := 0
  changes : Nat := 0

/-- `mod_sln`, `mod_act`, `mod_vis` (view.inline.cpp:237-241, 249-253, 261-265). -/
def Chan.mod (A : Arith) (c : Chan) (v : Rat) : Chan :=
  { c with acc := A.add c.acc v, changes := c.changes + 1 }

/-- `set_sln`, `set_act`, `set_vis` (view.inline.cpp:243-247, 255-259, 267-271). -/
def Chan.set (A : Arith) (c : Chan) (v : Rat) : Chan :=
  { c with acc := A.add c.acc (A.sub v c.val), changes := c.changes + 1 }

/-- The clamping of view.cpp:236-239, 264-267, 292-295. -/
def clamp (x : Rat) : Rat := if x < 0 then 0 else if x > 1 then 1 else x

/-- The first part of `update_sln` (view.cpp:233-243), of `update_act` (261-271), and
`update_vis` (289-300). -/
def Chan.update (A : Arith) (c : Chan) : Chan :=
  if c.changes > 0 ∧ c.acc ≠ 0 then
    { val := A.store (clamp (A.add c.val (A.div c.acc c.changes))), acc := 0, changes := 0 }
  else { c with acc := 0, changes := 0 }

/-- The same for the thresholds and c-values of a group (group.cpp:267-277 and 281-391), which do
not test the accumulated change. -/
def Chan.updateThr (A : Arith) (c : Chan) : Chan :=
  if c.changes > 0 then
    { val := A.store (clamp (A.add c.val (A.div c.acc c.changes))), acc := 0, changes := 0 }
  else { c with acc := 0, changes := 0 }

/-- Resilience in the code: plus infinity or a number. -/
inductive ResVal
  | inf
  | fin (r : Rat)
  deriving DecidableEq

structure Res where
  val : ResVal
  acc : Rat := 0
  changes : Nat := 0

/-- `mod_res` (view.inline.cpp:221-227). -/
def Res.mod (A : Arith) (r : Res) (v : Rat) : Res :=
  match r.val with
  | .inf => r
  | .fin _ => { r with acc := A.add r.acc v, changes := r.changes + 1 }

/-- `set_res` (view.inline.cpp:229-235). -/
def Res.set (A : Arith) (r : Res) (v : Rat) : Res :=
  match r.val with
  | .inf => r
  | .fin x => { r with acc := A.add r.acc (A.sub v x), changes := r.changes + 1 }

/-- `update_res` (view.cpp:216-229). -/
def Res.update (A : Arith) (r : Res) : Res :=
  match r.val with
  | .inf => r
  | .fin x =>
    let new := if r.changes > 0 ∧ r.acc ≠ 0 then A.add x (A.div r.acc r.changes) else x
    let dec := A.sub new 1
    { val := .fin (A.store (if dec < 0 then 0 else dec)), acc := 0, changes := 0 }

/-- Does the group keep the view after this update? `Group::update_res` returns 0 for an
invalidated object, else the new resilience (group.cpp:393-405); the view is kept iff the result is
positive (group.cpp:600-611). -/
def kept (invalidated : Bool) (r : Res) : Bool :=
  !invalidated && match r.val with
    | .inf => true
    | .fin x => decide (0 < x)

/-- `View::View(..., int32 res, ...)` (view.inline.cpp:156). -/
def newRes (A : Arith) (res : Int) : Res :=
  { val := if res < 0 then .inf else .fin (A.store (A.add res 0)) }

/-- A view's control values. -/
structure View where
  sln : Chan
  act : Chan
  vis : Chan
  res : Res
  atLow : Nat := 0    -- `periods_at_low_sln_`
  atHigh : Nat := 0   -- `periods_at_high_sln_`

inductive Member | sln | res | act | vis
  deriving DecidableEq

/-- `View::mod(member_index, value)` (view.inline.cpp:293-309). -/
def View.mod (A : Arith) (v : View) (m : Member) (x : Rat) : View :=
  match m with
  | .sln => { v with sln := v.sln.mod A x }
  | .res => { v with res := v.res.mod A x }
  | .act => { v with act := v.act.mod A x }
  | .vis => { v with vis := v.vis.mod A x }

/-- `View::set(member_index, value)` (view.inline.cpp:311-327). -/
def View.set (A : Arith) (v : View) (m : Member) (x : Rat) : View :=
  match m with
  | .sln => { v with sln := v.sln.set A x }
  | .res => { v with res := v.res.set A x }
  | .act => { v with act := v.act.set A x }
  | .vis => { v with vis := v.vis.set A x }

/-- The period counters of `update_sln` (view.cpp:245-255; `update_act`, 273-283, is the same):
new `periods_at_low_`, `periods_at_high_` for the updated value. -/
def countPeriods (low high : Rat) (atLow atHigh : Nat) (v : Rat) : Nat × Nat :=
  if v < low then (atLow + 1, atHigh)
  else (0, if v > high then atHigh + 1 else 0)

inductive Ntf | high | low
  deriving DecidableEq

/-- The notification part of `Group::update_sln` (group.cpp:420-434; `update_act` 448-462):
counters after it and the notification raised. `prd` is the configured number of periods, a float
in the group's code. -/
def notify (prd : Rat) (atLow atHigh : Nat) : (Nat × Nat) × Option Ntf :=
  if (atHigh : Rat) = prd then ((atLow, 0), some .high)
  else if (atLow : Rat) = prd then ((0, atHigh), some .low)
  else ((atLow, atHigh), none)

/-- One update with the value `v`: counters and notification. -/
def period (low high prd : Rat) (s : Nat × Nat) (v : Rat) : (Nat × Nat) × Option Ntf :=
  let c := countPeriods low high s.1 s.2 v
  notify prd c.1 c.2

/-- The counters after a history of updated values, oldest first. -/
def counters (low high prd : Rat) (vs : List Rat) : Nat × Nat :=
  vs.foldl (fun s v => (period low high prd s v).1) (0, 0)

/-- The notification raised by the last update of a history `vs ++ [v]`. -/
def lastNtf (low high prd : Rat) (vs : List Rat) (v : Rat) : Option Ntf :=
  (period low high prd (counters low high prd vs) v).2

/-! ### Group statistics -/

/-- `avg_sln_`, `high_sln_`, `low_sln_`, `sln_updates_` (group.h). -/
structure Stats where
  avg : Rat
  high : Rat
  low : Rat
  updates : Nat

/-- `Group::reset_stats` (group.cpp:154-163). -/
def Stats.reset : Stats := ⟨0, 0, 1, 0⟩

/-- Group.cpp:413-418, 441-446. -/
def Stats.visit (A : Arith) (s : Stats) (v : Rat) : Stats :=
  { avg := A.add s.avg v
    high := if v > s.high then v else s.high
    low := if v > s.high then s.low else if v < s.low then v else s.low
    updates := s.updates + 1 }

/-- `Group::update_stats` (group.cpp:185-206): what the group publishes (average, highest,
lowest). -/
def Stats.publish (A : Arith) (s : Stats) : Rat × Rat × Rat :=
  (A.store (if s.updates ≠ 0 then A.div s.avg s.updates else s.avg), A.store s.high, A.store s.low)

/-- Statistics after visiting the updated values `vs` in this order. -/
def stats (A : Arith) (vs : List Rat) : Stats := vs.foldl (Stats.visit A) Stats.reset

/-! ### Copying a view to another group -/

/-- `View::MorphValue` (view.cpp:120-137). -/
def morphValue (A : Arith) (value source dest : Rat) : Rat :=
  if value = 0 then dest
  else if source > 0 then
    if dest > 0 then
      let r := A.div (A.mul value dest) source
      if r > 1 then 1 else r
    else value
  else A.add dest value

/-- `View::MorphChange` (view.cpp:139-149). -/
def morphChange (A : Arith) (change source dest : Rat) : Rat :=
  if source > 0 then
    if dest > 0 then A.div (A.mul change dest) source else change
  else A.add dest change

end Verif.ViewCtl
