import Verif.F32.Order
/-!
# Rating of models

Transcription of `PrimaryMDLController::rate_model`, `SecondaryMDLController::rate_model` and of the
calls made by `register_pred_outcome` and `register_req_outcome`
(`/repo/r_exec/mdl_controller.cpp:2359-2366, 2406-2411, 2501-2574, 2821-2872`), in an arbitrary
arithmetic `A` (`Verif.F32`): `F32.single` is what the processor and the atoms do.

Simplifications: the two controllers of a model are rated one after the other (both hold `codeCS_` of
the model's own controller only); of a view, the last activation asked for is kept (`View::set_act` is
modelled in `Verif.ViewCtl`); the conversion `(uint32)(1 / success_rate)` is the integer part.
-/
namespace Verif.Rating
open Verif.F32

/-- Thresholds: `mdl_inertia_sr_thr`, `mdl_inertia_cnt_thr` (`/repo/r_exec/mem.cpp:103-104`), the
activation thresholds of the primary and of the secondary group. -/
structure Thr where
  srThr : Rat
  cntThr : Nat
  actThr : Rat
  secThr : Rat

/-- A model (`MDL_STRENGTH`, `MDL_SR`, `MDL_CNT`, `MDL_DSR` of its code) with the activations last asked
for in the primary and the secondary group, and whether its controller is invalidated (deleted). -/
structure Mdl where
  strength : Rat
  sr : Rat
  cnt : Rat
  dsr : Rat
  act : Rat
  secAct : Rat
  dead : Bool
deriving DecidableEq

variable (A : Arith) (t : Thr)

/-- `PrimaryMDLController::rate_model` (mdl_controller.cpp:2501-2574). -/
def rate (m : Mdl) (success : Bool) : Mdl :=
  if m.dead then m else
  let e := A.add m.cnt 1
  let k := A.mul m.sr m.cnt
  if success then
    let r := A.div (A.add k 1) e
    if t.srThr ≤ r ∧ (t.cntThr : Rat) ≤ e then
      { m with dsr := m.sr, cnt := A.store (trunc (A.div 1 r)), sr := A.store 1,
               strength := if (1 : Rat) ≠ m.strength then A.store 1 else m.strength, act := 1 }
    else { m with dsr := m.sr, cnt := A.store e, sr := A.store r, act := r }
  else
    let r := A.div k e
    if t.actThr < r then { m with dsr := m.sr, cnt := A.store e, sr := A.store r, act := r }
    else if m.strength = 1 then { m with dsr := m.sr, act := 0, secAct := r }
    else { m with dsr := m.sr, dead := true }

/-- `SecondaryMDLController::rate_model` (mdl_controller.cpp:2821-2861). -/
def rateSec (m : Mdl) : Mdl :=
  if m.dead then m else
  let e := A.add m.cnt 1
  let r := A.div (A.add (A.mul m.sr m.cnt) 1) e
  let m := { m with dsr := m.sr, cnt := A.store e, sr := A.store r }
  if t.actThr < r then { m with secAct := 0, act := r }
  else if t.secThr < r then { m with secAct := r } else m

/-- An outcome reported to one of the controllers of the model: `register_pred_outcome` with the
confidence of the evidence and `rate_failures` (mdl_controller.cpp:2359-2366, 2406-2411, 2863-2872). -/
inductive Ev
  | primary (success : Bool) (confidence : Rat) (rateFailures : Bool)
  | secondary (success : Bool)
deriving DecidableEq

/-- `register_pred_outcome` / `register_req_outcome`, the rating part. The secondary controller does not
look at the confidence (line 2863-2866). -/
def step (m : Mdl) : Ev → Mdl
  | .primary s c rf =>
    if c = 1 then (if s then rate A t m true else if rf then rate A t m false else m) else m
  | .secondary s => if s then rateSec A t m else m

def run (m : Mdl) (es : List Ev) : Mdl := es.foldl (step A t) m

end Verif.Rating
