/-!
# Operators by name and by opcode

Transcription of the declarations of operators, functions and classes in `Preprocessor::initialize`
(`/repo/r_comp/preprocessor.cpp:1315-1421`), of the table of opcodes by name and the registration of operators in
`InitOpcodes` (`/repo/r_exec/init.cpp:370-391, 476-504`) and `Init` (507-565), of `Operator::Register`
(`/repo/r_exec/operator.cpp:105-111`) and of the call of an operator (`/repo/r_exec/operator.h:200-206`).

Operators are compiled to the opcode of the class of their name (`classes_`), and are called by opcode.

Simplifications: opcodes are not cut to 12 bits; the opcodes of classes, which depend on templates (`Verif.Classes`),
are given; names are shorter than the buffers they are copied to (init.cpp:543-545); only the operators of the library are loaded, not
its programs and callbacks (init.cpp:562-620), for which `Init` can fail too.
-/
namespace Verif.Oper

/-- A directive: `!op`, `!dfn`, or a class with its opcode, that is a system class or not. -/
inductive Decl
  | op (name : String)
  | fn (name : String)
  | cls (name : String) (opcode : Nat) (sys : Bool)
deriving DecidableEq, Repr

def Decl.name : Decl → String
  | .op n => n
  | .fn n => n
  | .cls n _ _ => n

/-- What a name stands for in `classes_`: the descriptor of the atom and the opcode. -/
inductive Ref
  | op (k : Nat)
  | fn (k : Nat)
  | cls (k : Nat) (sys : Bool)
deriving DecidableEq, Repr

def Ref.opcode : Ref → Nat
  | .op k => k
  | .fn k => k
  | .cls k _ => k

/-- preprocessor.cpp:1380-1418: operators and functions have opcodes of their own. -/
def table : Nat → Nat → List Decl → List (String × Ref)
  | _, _, [] => []
  | i, j, .op n :: ds => (n, .op i) :: table (i + 1) j ds
  | i, j, .fn n :: ds => (n, .fn j) :: table i (j + 1) ds
  | i, j, .cls n k s :: ds => (n, .cls k s) :: table i j ds

/-- `classes_[name]`: the last that was written. -/
def lookup : List (String × Ref) → String → Option Ref
  | [], _ => none
  | (m, r) :: l, n =>
    match lookup l n with
    | some r => some r
    | none => if m = n then some r else none

def isSys : Ref → Bool
  | .cls _ s => s
  | _ => false

/-- `_Opcodes` (init.cpp:372-389): system classes are written after all the others. -/
def opcode (ds : List Decl) (n : String) : Option Nat :=
  match lookup ((table 0 0 ds).filter fun e => isSys e.2) n with
  | some r => some r.opcode
  | none => (lookup (table 0 0 ds) n).map Ref.opcode

/-- The functions: those of the executive, named as the operators they implement in `std.replicode`, and those of the library. -/
inductive Fn
  | std (name : String)
  | usr (name : String)
deriving DecidableEq, Repr

structure Entry where
  op : Option Fn := none
  over : Option Fn := none
deriving DecidableEq, Repr

/-- `Operators_`. -/
abbrev Tab := Nat → Entry

/-- operator.cpp:107-110. -/
def Entry.add (e : Entry) (f : Fn) : Entry :=
  if e.op.isSome then { e with over := some f } else { op := some f }

def register (t : Tab) (k : Nat) (f : Fn) : Tab := fun j => if j = k then (t j).add f else t j

/-- init.cpp:478-502, in this order (`now`, `minimum` and `maximum` are `_now`, `min` and `max` in `std.replicode`). -/
def stdNames : List String :=
  ["_now", "rnd", "equ", "neq", "gtr", "lsr", "gte", "lse", "add", "sub", "mul", "div", "dis", "ln", "exp", "log", "e10", "syn", "ins", "red", "fvw",
    "is_sim", "min", "max", "id"]

/-- init.cpp:477-502. -/
def regStd : Nat → List String → Tab → Tab
  | _, [], t => t
  | k, n :: ns, t => regStd (k + 1) ns (register t k (.std n))

/-- The library: the names that `GetOperatorName` gives, and the functions there are. -/
structure Lib where
  ops : List String
  fns : List String

/-- init.cpp:541-560; `none` if the program ends or `Init` fails. -/
def regUsr (ds : List Decl) (fns : List String) : List String → Tab → Option Tab
  | [], t => some t
  | n :: ns, t =>
    match opcode ds n with
    | none => none
    | some k => if n ∈ fns then regUsr ds fns ns (register t k (.usr n)) else none

/-- `Init` (init.cpp:507-565). -/
def init (ds : List Decl) (L : Lib) (t : Tab) : Option Tab := regUsr ds L.fns L.ops (regStd 0 stdNames t)

/-- What the library of the repository gives when it is asked again: the index of `GetOperatorName` is static and past the last name,
so that nothing is written and the names are empty (usr_operators.cpp:108-152, init.cpp:543-546). -/
def Lib.later (L : Lib) : Lib := { L with ops := L.ops.map fun _ => "" }

/-- `Init` several times, without a library (init.cpp:515-516) or with one that gives its names anew each time, which that of
the repository does not (`Lib.later`). -/
def inits (ds : List Decl) (L : Lib) : Nat → Tab → Option Tab
  | 0, t => some t
  | m + 1, t => (init ds L t).bind (inits ds L m)

/-- The functions that a call tries, one after the other until one succeeds (operator.h:200-206). -/
def Entry.calls (e : Entry) : List Fn := e.op.toList ++ e.over.toList

end Verif.Oper
