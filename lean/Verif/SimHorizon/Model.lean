import Verif.F32.Order
/-!
# Time allotted to simulations

Times are `std::chrono::microseconds` over `int64`; `none` is undefined behaviour (overflow of the
difference, conversion of a float that does not fit).
-/
namespace Verif.SimHorizon
open Verif.F32

/-- `int64` range. -/
def i64 (x : Int) : Option Int := if -2 ^ 63 ≤ x ∧ x < 2 ^ 63 then some x else none

/-- r_exec/mem.h:251-253 `_Mem::get_sim_time_horizon`: `horizon.count()` (an `int64`) times a `float32`
is a `float32`, cast to `int64`. -/
def getSimTimeHorizon (factor : Rat) (horizon : Int) : Option Int :=
  i64 (trunc (fl (fl horizon * factor)))

/-- r_exec/mdl_controller.cpp:1241-1254 `PMDLController::get_sim_thz`. -/
def getSimThz (factor : Rat) (min max now deadline : Int) : Option Int :=
  match i64 (deadline - now) with
  | none => none
  | some h =>
    match getSimTimeHorizon factor h with
    | none => none
    | some t =>
      some (if t > min then (if t - min > max then max else t - min) else 0)

/-- A step of backward chaining in a simulation. -/
inductive Level where
  /-- through a model -/
  | mdl
  /-- through a composite state -/
  | cst
deriving DecidableEq

/-- Horizon of the simulation of a sub-goal; `none` when the sub-goal is not simulated.
r_exec/mdl_controller.cpp:1853-1862 `PrimaryMDLController::abduce` (half of the minimum is taken off,
with `std::chrono` division towards zero; the minimum is not negative) and r_exec/cst_controller.cpp:645-648
`CSTController::abduce` (unchanged; called for goals whose simulation has a horizon). -/
def subThz (min thz : Int) : Level → Option Int
  | .mdl => if thz > min / 2 then some (thz - min / 2) else none
  | .cst => some thz

/-- Horizon at the end of a chain. -/
def chain (min thz : Int) : List Level → Option Int
  | [] => some thz
  | x :: xs => (subThz min thz x).bind fun t => chain min t xs

end Verif.SimHorizon
