import Verif.ViewCtl.Model
import Verif.Upr.Model
/-!
# Resilience from a time to live

`Utils::GetResilience` (r_code/code_utils.cpp:224-248) and its callers. Instants are integers
(microseconds); conversions to `uint64` and `int32` are explicit.
-/
namespace Verif.Lifetime
open Verif.F32 Verif.ViewCtl

/-- Conversion of an `int64` count to `uint64`, by the division by one. -/
def u64 (x : Int) : Nat := (x % 2 ^ 64).toNat
/-- Conversion of a `uint64` to `int32`. -/
def i32 (n : Nat) : Int := (n : Int).bmod (2 ^ 32)

/-- r_code/code_utils.cpp:224-234 `GetResilience(now, time_to_live, upr)`: `ref` is `TimeReference`. -/
def getResilience (ref now ttl : Int) (upr : Nat) : Int :=
  if ttl = 0 ∨ upr = 0 then 1
  else
    let last := u64 (now - ref) / upr
    let next := u64 (now + ttl - ref) / upr
    let next := if u64 (now + ttl - ref) % upr > 0 then (next + 1) % 2 ^ 64 else next
    i32 ((next + (2 ^ 64 - last)) % 2 ^ 64)

/-- r_exec/mem.cpp:781-796 `_Mem::inject_null_program` and r_exec/cst_controller.cpp:755, 769
`CSTController::inject_icst`: the resilience of the view; the period of the group is its `upr` times
the base period. -/
def viewRes (ref base : Int) (upr : Nat) (now ttl : Int) : Int :=
  getResilience ref now ttl (u64 (upr * base))

/-- r_exec/mem.h:260-267 `get_goal_pred_success_res` (not in debug mode), used for goals, predictions and
their outcomes (r_exec/mdl_controller.cpp:1170, 1187, 1746, 2645, r_exec/cst_controller.cpp:740): the `upr`
of the group is passed as it is. -/
def goalRes (ref : Int) (upr : Nat) (now ttl : Int) : Int :=
  if ttl = 0 then 1 else getResilience ref now ttl upr

/-- r_code/code_utils.cpp:236-247 `GetResilience(resilience, origin_upr, destination_upr)`, used by
`AutoFocusController::inject_input` (r_exec/auto_focus.cpp:130-142, 168, 185, 211). The conversion of plus
infinity to `int32` is undefined: `none`; so is that of a number that does not fit. The conversion of the
update periods to `float32` is not modelled: it is exact up to 2^24. -/
def focusRes (A : Arith) (r : ResVal) (origin dest : Nat) : Option Int :=
  if origin = 0 then some 1
  else if dest ≤ origin then some 1
  else
    match r with
    | .inf => none
    | .fin x =>
      let res := A.mul x (A.div origin dest)
      if res < 1 then some 1
      else if res < 2 ^ 31 then some (trunc res) else none

end Verif.Lifetime
