import Verif.F32.Model
/-!
# Arithmetic and comparison operators

Transcription of `gtr`, `lsr`, `gte`, `lse`, `add`, `sub`, `mul`, `div`, `dis`
(`/repo/r_exec/operator.cpp:252-700`).

Values are what the operators distinguish: numbers (`isFloat()`), timestamps, durations, others.
Finite numbers are rationals, computed in the arithmetic `A`; numbers can be infinite or undefined.
Timestamps and durations are integers (microseconds); a result outside 64 bits, or the conversion of
such a number, is undefined behaviour (`ub`).  That the words of a timestamp or duration give back the
value stored is C06.  Simplification: zero has no sign.
-/
namespace Verif.Ops
open Verif.F32

inductive Num
  | fin (q : Rat)
  | inf
  | ninf
  | nan
deriving DecidableEq

inductive Val
  | num (x : Num)
  | time (t : Int)
  | dur (d : Int)
  | other
deriving DecidableEq

/-- Result of an operator: a value (the operator answers true), failure (false), undefined behaviour. -/
inductive Res
  | ok (v : Val)
  | bool (b : Bool)
  | fail
  | ub
deriving DecidableEq

/-- The arithmetics involved: single precision, the conversion `(float32)count()`, the double
precision product and quotient of a count and a number. -/
structure Env where
  A : Arith
  toF : Int → Rat
  mul64 : Int → Rat → Rat
  div64 : Int → Rat → Rat

/-- Ideal arithmetic. -/
def exactEnv : Env := ⟨exact, fun n => n, fun n q => n * q, fun n q => n / q⟩

/-- Results of 64 bits. -/
def fits (n : Int) : Bool := decide (-9223372036854775808 ≤ n) && decide (n ≤ 9223372036854775807)
def time (n : Int) : Res := if fits n then .ok (.time n) else .ub
def dur (n : Int) : Res := if fits n then .ok (.dur n) else .ub

/-- IEEE operations (the arithmetic `A` on finite numbers). -/
def sign (q : Rat) : Num := if 0 < q then .inf else if q < 0 then .ninf else .nan
def neg : Num → Num
  | .fin q => .fin (-q)
  | .inf => .ninf
  | .ninf => .inf
  | .nan => .nan
def fadd (A : Arith) : Num → Num → Num
  | .nan, _ => .nan
  | _, .nan => .nan
  | .fin a, .fin b => .fin (A.add a b)
  | .fin _, b => b
  | a, .fin _ => a
  | .inf, .inf => .inf
  | .ninf, .ninf => .ninf
  | .inf, .ninf => .nan
  | .ninf, .inf => .nan
def fsub (A : Arith) : Num → Num → Num
  | .fin a, .fin b => .fin (A.sub a b)
  | a, b => fadd A a (neg b)
def fmul (A : Arith) : Num → Num → Num
  | .nan, _ => .nan
  | _, .nan => .nan
  | .fin a, .fin b => .fin (A.mul a b)
  | .fin a, .inf => sign a
  | .fin a, .ninf => neg (sign a)
  | .inf, .fin b => sign b
  | .ninf, .fin b => neg (sign b)
  | .inf, .inf => .inf
  | .ninf, .ninf => .inf
  | .inf, .ninf => .ninf
  | .ninf, .inf => .ninf
def fdiv (A : Arith) : Num → Num → Num
  | .nan, _ => .nan
  | _, .nan => .nan
  | .fin a, .fin b => if b = 0 then sign a else .fin (A.div a b)
  | .fin _, _ => .fin 0
  | .inf, .fin b => if b < 0 then .ninf else .inf
  | .ninf, .fin b => if b < 0 then .inf else .ninf
  | _, _ => .nan
/-- `a < b`, `a ≤ b`. -/
def flt : Num → Num → Bool
  | .fin a, .fin b => decide (a < b)
  | .fin _, .inf => true
  | .ninf, .fin _ => true
  | .ninf, .inf => true
  | _, _ => false
def fle : Num → Num → Bool
  | .fin a, .fin b => decide (a ≤ b)
  | .fin _, .inf => true
  | .ninf, .fin _ => true
  | .ninf, .inf => true
  | .inf, .inf => true
  | .ninf, .ninf => true
  | _, _ => false

/-- `Atom::Float(x)`, read back. -/
def stored (A : Arith) : Num → Num
  | .fin q => .fin (A.store q)
  | x => x
def number (E : Env) (x : Num) : Res := .ok (.num (stored E.A x))

/-- `microseconds((int64)x)`: the count, or undefined behaviour. -/
def toInt : Num → Option Int
  | .fin q => if fits (trunc q) then some (trunc q) else none
  | _ => none
def withInt (x : Num) (k : Int → Res) : Res := match toInt x with
  | none => .ub
  | some n => k n

/-! ## Operators -/

/-- `gtr` (operator.cpp:248-280). -/
def gtr : Val → Val → Res
  | .num a, .num b => .bool (flt b a)
  | .time a, .time b => .bool (decide (a > b))
  | .dur a, .dur b => .bool (decide (a > b))
  | _, _ => .fail
/-- `lsr` (operator.cpp:284-316). -/
def lsr : Val → Val → Res
  | .num a, .num b => .bool (flt a b)
  | .time a, .time b => .bool (decide (a < b))
  | .dur a, .dur b => .bool (decide (a < b))
  | _, _ => .fail
/-- `gte` (operator.cpp:320-352). -/
def gte : Val → Val → Res
  | .num a, .num b => .bool (fle b a)
  | .time a, .time b => .bool (decide (a ≥ b))
  | .dur a, .dur b => .bool (decide (a ≥ b))
  | _, _ => .fail
/-- `lse` (operator.cpp:356-388). -/
def lse : Val → Val → Res
  | .num a, .num b => .bool (fle a b)
  | .time a, .time b => .bool (decide (a ≤ b))
  | .dur a, .dur b => .bool (decide (a ≤ b))
  | _, _ => .fail

/-- `add` (operator.cpp:392-463). -/
def add (E : Env) : Val → Val → Res
  | .num a, .num b =>
    if a = .inf then .ok (.num .inf) else if b = .inf then .ok (.num .inf) else number E (fadd E.A a b)
  | .num a, .time t => if a = .inf then .fail else withInt a fun n => time (t + n)
  | .num a, .dur d => if a = .inf then .fail else withInt a fun n => dur (d + n)
  | .time t, .num b => if b = .inf then .fail else withInt b fun n => time (t + n)
  | .time t, .dur d => time (t + d)
  | .dur a, .dur b => dur (a + b)
  | .dur d, .time t => time (d + t)
  | .dur d, .num b => if b = .inf then .fail else withInt b fun n => dur (d + n)
  | _, _ => .fail

/-- `sub` (operator.cpp:467-525). -/
def sub (E : Env) : Val → Val → Res
  | .num a, .num b =>
    if a = .inf then .ok (.num .inf) else if b = .inf then number E (.fin 0) else number E (fsub E.A a b)
  | .time a, .time b => dur (a - b)
  | .time t, .num b => if b = .inf then .fail else withInt b fun n => time (t - n)
  | .time t, .dur d => time (t - d)
  | .dur a, .dur b => dur (a - b)
  | .dur d, .num b => if b = .inf then .fail else withInt b fun n => dur (d - n)
  | _, _ => .fail

/-- `mul` (operator.cpp:529-601). -/
def mul (E : Env) : Val → Val → Res
  | .num a, .num b =>
    if a = .inf ∧ b = .inf then .ok (.num .inf)
    else if a = .inf ∧ flt (.fin 0) b = true then .ok (.num .inf)
    else if a = .inf ∧ fle b (.fin 0) = true then number E (.fin 0)
    else if b = .inf ∧ flt (.fin 0) a = true then .ok (.num .inf)
    else if b = .inf ∧ fle a (.fin 0) = true then number E (.fin 0)
    else number E (fmul E.A a b)
  | .num a, .dur d => if a = .inf then .fail else number E (fmul E.A a (.fin (E.toF d)))
  | .dur d, .num (.fin b) => withInt (.fin (E.mul64 d b)) dur
  | .dur _, .num b => if b = .inf then .fail else .ub
  | .dur a, .dur b => number E (fmul E.A (.fin (E.toF a)) (.fin (E.toF b)))
  | _, _ => .fail

/-- `div` (operator.cpp:605-680).  The quotient of a duration by 0 does not fit 64 bits. -/
def div (E : Env) : Val → Val → Res
  | .num a, .num b =>
    if b = .fin 0 then .fail
    else if a = .inf ∧ b = .inf then .ok (.num .inf)
    else if a = .inf ∧ flt (.fin 0) b = true then .ok (.num .inf)
    else if a = .inf ∧ fle b (.fin 0) = true then number E (.fin 0)
    else if b = .inf ∧ flt (.fin 0) a = true then .ok (.num .inf)
    else if b = .inf ∧ fle a (.fin 0) = true then number E (.fin 0)
    else number E (fdiv E.A a b)
  | .num a, .dur d => if a = .inf then .fail else number E (fdiv E.A a (.fin (E.toF d)))
  | .dur d, .num (.fin b) => if b = 0 then .ub else withInt (.fin (E.div64 d b)) dur
  | .dur _, .num .ninf => .ok (.dur 0)
  | .dur _, .num b => if b = .inf then .fail else .ub
  | .dur a, .dur b => number E (fdiv E.A (.fin (E.toF a)) (.fin (E.toF b)))
  | _, _ => .fail

def fabs : Num → Num
  | .fin q => .fin |q|
  | .inf => .inf
  | .ninf => .inf
  | .nan => .nan

/-- `dis` (operator.cpp:684-713). -/
def dis (E : Env) : Val → Val → Res
  | .num a, .num b => number E (fabs (fsub E.A a b))
  | .time a, .time b => if fits (a - b) then dur |a - b| else .ub
  | .dur a, .dur b => if fits (a - b) then dur |a - b| else .ub
  | _, _ => .fail

end Verif.Ops
