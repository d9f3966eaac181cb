/-!
# The guards of models and composite states

Transcription of `HLPContext::evaluate_no_dereference` (`/repo/r_exec/hlp_context.cpp:137-198`),
`BindingMap::bind_variable` and `scan_variable` (`/repo/r_exec/binding_map.cpp:872-886, 898-903`),
`HLPOverlay::evaluate_guards` and `evaluate_fwd_timings` (`/repo/r_exec/hlp_overlay.cpp:133-148, 166-224`).

The code of a guard is a tree. Evaluation replaces operators by their results in the code of the overlay, as the
code does (`setAtomicResult` and its like, `/repo/r_exec/_context.cpp`); operators that fail leave nil there.

Simplifications: guards do not share parts; literals have no expressions in them; the variables with numbers below
`first_index_` are not treated apart. What operators do is a parameter (with overloads).
-/
namespace Verif.Gev

/-- What a variable can be bound to: a number, another atom (nil, booleans, entities, ...), an object, a
timestamp, a duration. -/
inductive V
  | num (n : Int)
  | nil
  | bool (b : Bool)
  | atom (a : Nat)
  | obj (o : List Int)
  | time (t : Int)
  | dur (d : Int)
deriving DecidableEq, Repr

mutual
/-- An expression: a literal, the result of an operator (in place of it), a variable, an operator with operands. -/
inductive Expr
  | lit (v : V)
  | res (v : V)
  | var (x : Nat)
  | op (f : Nat) (as : Args)
inductive Args
  | nil
  | cons (e : Expr) (as : Args)
end

/-- An assignment (`x:e`) or a condition. -/
inductive Guard
  | set (x : Nat) (e : Expr)
  | test (e : Expr)

/-- The operators. -/
abbrev Ops := Nat → List V → Option V

/-- The bindings; `none` is an `UnboundValue`. -/
abbrev Env := Nat → Option V

def Env.put (env : Env) (x : Nat) (v : V) : Env := fun y => if y = x then some v else env y

/-- What a member stands for (`dereference`, hlp_context.cpp:119-135). -/
def value (env : Env) : Expr → Option V
  | .lit v => some v
  | .res v => some v
  | .var x => env x
  | .op _ _ => none

def values (env : Env) : Args → Option (List V)
  | .nil => some []
  | .cons e as => (value env e).bind fun v => (values env as).map (v :: ·)

mutual
/-- `get_child_deref(i).evaluate_no_dereference()` (hlp_context.cpp:137-198): the code afterwards, and success. -/
def eval (O : Ops) (env : Env) : Expr → Expr × Bool
  | .lit v => (.lit v, true)
  | .res v => (.res v, true)
  | .var x => (.var x, (env x).isSome)
  | .op f as =>
    match evals O env as with
    | (bs, false) => (.op f bs, false)
    | (bs, true) =>
      match (values env bs).bind (O f) with
      | some r => (.res r, true)
      | none => (.res .nil, false)

/-- The loop over the operands (hlp_context.cpp:164-169). -/
def evals (O : Ops) (env : Env) : Args → Args × Bool
  | .nil => (.nil, true)
  | .cons e as =>
    match eval O env e with
    | (e', false) => (.cons e' as, false)
    | (e', true) =>
      match evals O env as with
      | (bs, ok) => (.cons e' bs, ok)
end

/-- `bind_variable` for an assignment (binding_map.cpp:872-886): numbers, objects in the code, and results in
the values are bound. -/
def bind (env : Env) (x : Nat) : Expr → Env
  | .lit (.num n) => env.put x (.num n)
  | .lit (.obj o) => env.put x (.obj o)
  | .res (.num n) => env.put x (.num n)
  | .res (.obj o) => env.put x (.obj o)
  | .res (.time t) => env.put x (.time t)
  | .res (.dur d) => env.put x (.dur d)
  | _ => env

/-- Whether an assignment's expression is evaluated: without following a variable (hlp_context.cpp:148-151). -/
def evalSet (O : Ops) (env : Env) (e : Expr) : Expr × Bool :=
  match e with
  | .var x => (.var x, true)
  | e => eval O env e

/-- An assignment (hlp_context.cpp:148-159). -/
def assign (O : Ops) (env : Env) (x : Nat) (e : Expr) : Env × Expr × Bool :=
  match evalSet O env e with
  | (e', true) => (bind env x e', e', true)
  | (e', false) => (env, e', (env x).isSome)

/-- `evaluate_guards` (hlp_overlay.cpp:133-148): the bindings, if it succeeds. -/
def run (O : Ops) : Env → List Guard → Option Env
  | env, [] => some env
  | env, .set x e :: gs =>
    match assign O env x e with
    | (_, _, false) => none
    | (env', _, true) => run O env' gs
  | env, .test e :: gs =>
    match eval O env e with
    | (_, false) => none
    | (e', true) => if value env e' = some (.bool false) then none else run O env gs

/-- The last assignment to a variable (hlp_overlay.cpp:176-188). -/
def lastSet (gs : List Guard) (x : Nat) : Option Expr :=
  gs.foldl (fun r g => match g with
    | .set y e => if y = x then some e else r
    | .test _ => r) none

/-- `is_timestamp` (`/repo/r_exec/binding_map.h:327-330`). -/
def isTime (env : Env) (x : Nat) : Bool :=
  match env x with
  | some (.time _) => true
  | _ => false

/-- The part of `evaluate_fwd_timings` for the end of the interval (hlp_overlay.cpp:190-211): the
bindings and the code of the guard for the beginning, `ea`. -/
def before (O : Ops) (env : Env) (a b : Nat) (ea eb : Option Expr) : Option (Env × Option Expr) :=
  if isTime env b then some (env, ea)
  else match eb with
    | none => none
    | some eb =>
      match assign O env b eb with
      | (env1, _, true) => some (env1, ea)
      | (env1, eb1, false) =>
        match ea with
        | none => none
        | some ea =>
          match assign O env1 a ea with
          | (_, _, false) => none
          | (env2, ea1, true) =>
            match assign O env2 b eb1 with
            | (_, _, false) => none
            | (env3, _, true) => some (env3, some ea1)

/-- `evaluate_fwd_timings` (hlp_overlay.cpp:166-224) with the variables `a` (after) and `b` (before). -/
def timings (O : Ops) (env : Env) (a b : Nat) (gs : List Guard) : Option Env :=
  match before O env a b (lastSet gs a) (lastSet gs b) with
  | none => none
  | some (env1, ea) =>
    if isTime env1 a then some env1
    else match ea with
      | none => none
      | some ea =>
        match assign O env1 a ea with
        | (_, _, false) => none
        | (env2, _, true) => some env2

end Verif.Gev
