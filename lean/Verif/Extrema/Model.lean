import Verif.Ops.Model
/-!
# The operators min and max

Transcription of `minimum` and `maximum` (`/repo/r_exec/operator.cpp:830-898`), on the values and with the
simplifications of `Verif.Ops`: zero has no sign.
-/
namespace Verif.Extrema
open Verif.Ops

/-- `std::min` and `std::max` of floats: the first operand unless the second is less (more). -/
def stdMin (a b : Num) : Num := if flt b a then b else a
def stdMax (a b : Num) : Num := if flt a b then b else a

/-- `minimum` of two numbers (operator.cpp:834-852). -/
def numMin (E : Env) (a b : Num) : Res :=
  if a = .ninf ∨ b = .ninf then .ok (.num .ninf)
  else if a = .inf then number E b
  else if b = .inf then number E a
  else number E (stdMin a b)

/-- `minimum` (operator.cpp:830-863). -/
def minimum (E : Env) : Val → Val → Res
  | .num a, .num b => numMin E a b
  | .time a, .time b => .ok (.time (min a b))
  | .dur a, .dur b => .ok (.dur (min a b))
  | _, _ => .fail

/-- `maximum` of two numbers (operator.cpp:869-887). -/
def numMax (E : Env) (a b : Num) : Res :=
  if a = .inf ∨ b = .inf then .ok (.num .inf)
  else if a = .ninf then number E b
  else if b = .ninf then number E a
  else number E (stdMax a b)

/-- `maximum` (operator.cpp:865-898). -/
def maximum (E : Env) : Val → Val → Res
  | .num a, .num b => numMax E a b
  | .time a, .time b => .ok (.time (max a b))
  | .dur a, .dur b => .ok (.dur (max a b))
  | _, _ => .fail

end Verif.Extrema
