import Verif.Words.Model
/-!
# Operators supplied by the user: vectors and quaternions

Transcription of `add`, `sub`, `mul`, `div`, `dis` (`/repo/usr_operators/Operators/operators.cpp:
101-461`), of `Operator::operator()` (`/repo/r_exec/operator.h:173-179`), of the way results are
written (`/repo/r_exec/_context.cpp:92-125`, `/repo/r_exec/operator.h:136-180`), and of
`HLPContext::dereference` and `evaluate_no_dereference` (`/repo/r_exec/hlp_context.cpp:119-202`).

Contexts are pointers into memory: into the code of the overlay, into its value array, into the code
of the value of a variable.  The value array is a `std::vector` that grows: a pointer into it taken
before it was moved is stale, and reading through it is undefined (`ub`).  Numbers are patterns of 32
bits, computed with in an arithmetic that is left open.  Simplifications: assignments
(`ASSIGN_PTR`) inside an expression are not modelled; indices are natural numbers, cut to 12 bits when
they are written in a pointer; the operators of the executive on two plain values are a parameter.
-/
namespace Verif.Usr
open Verif.Atom Verif.Words

/-- What a computation ends with: a value, failure (`false`), undefined behaviour. -/
inductive Res (α : Type)
  | ok (a : α)
  | fail
  | ub
deriving DecidableEq

def Res.bind {α β : Type} : Res α → (α → Res β) → Res β
  | .ok a, f => f a
  | .fail, _ => .fail
  | .ub, _ => .ub

/-- Single precision arithmetic on patterns of 32 bits; `hundredth x` is `round(x * 100.) / 100.`. -/
structure Arith where
  add : BitVec 32 → BitVec 32 → BitVec 32
  sub : BitVec 32 → BitVec 32 → BitVec 32
  mul : BitVec 32 → BitVec 32 → BitVec 32
  div : BitVec 32 → BitVec 32 → BitVec 32
  neg : BitVec 32 → BitVec 32
  sqrt : BitVec 32 → BitVec 32
  acos : BitVec 32 → BitVec 32
  hundredth : BitVec 32 → BitVec 32
  isZero : BitVec 32 → Bool
  negative : BitVec 32 → Bool

/-- `Vec3Opcode`, `Vec2Opcode`, `VecOpcode`, `QuatOpcode` (operators.cpp:91-94), as initialised by
`Operators::Init` (operators.cpp:465-480). -/
structure Classes where
  v3 : BitVec 16
  v2 : BitVec 16
  vn : BitVec 16
  qt : BitVec 16

inductive Op
  | add | sub | mul | div | dis
deriving DecidableEq

/-! ## Memory -/

/-- An overlay: `code_`, `values_`, the capacity of the latter, and how often it was moved
(overlay.h:113-122). -/
structure Mem where
  code : Code
  vals : Code
  cap : Nat
  gen : Nat

/-- What a context points into. -/
inductive Base
  | code
  | vals (gen : Nat)
  | bound (v : Nat)
deriving DecidableEq

structure Ctx where
  base : Base
  i : Nat
deriving DecidableEq

/-- The setting: the arithmetic, the classes, the capacity a full vector grows to, the values of the
variables, and the operators of the executive on two plain values (`none`: not supported). -/
structure Env where
  A : Arith
  K : Classes
  grow : Nat → Nat
  bind : Nat → Option Code
  std : Op → Word → Word → Option Word

/-- `HLPContext::get_child` (hlp_context.h:112-115). -/
def Ctx.child (c : Ctx) (k : Nat) : Ctx := ⟨c.base, c.i + k⟩

def Res.of {α : Type} : Option α → Res α
  | some a => .ok a
  | none => .ub

/-- `c[0]`: `code_[index_]` (hlp_context.h:107). -/
def word (E : Env) (m : Mem) (c : Ctx) : Res Word := match c.base with
  | .code => .of m.code[c.i]?
  | .vals g => if g = m.gen then .of m.vals[c.i]? else .ub
  | .bound v => match E.bind v with
    | some code => .of code[c.i]?
    | none => .ub

/-- `HLPContext::dereference` (hlp_context.cpp:119-138).  An unbound variable makes the evaluation
fail. -/
def deref (E : Env) (m : Mem) : Nat → Ctx → Res Ctx
  | 0, _ => .ub
  | n + 1, c => (word E m c).bind fun w =>
    if getDescriptor w = 0x84 then deref E m n ⟨c.base, (asIndex w).toNat⟩
    else if getDescriptor w = 0x86 then
      if (E.bind (asIndex w).toNat).isSome then deref E m n ⟨.bound (asIndex w).toNat, 0⟩ else .fail
    else if getDescriptor w = 0x89 then deref E m n ⟨.vals m.gen, (asIndex w).toNat⟩
    else .ok c

/-- How many pointers in a row are followed at most. -/
def deep : Nat := 8

/-- `(*c.get_child(k))`. -/
def sub (E : Env) (m : Mem) (c : Ctx) (k : Nat) : Res Ctx := deref E m deep (c.child k)

/-- `(*c.get_child(k))[0].asFloat()`. -/
def comp (E : Env) (m : Mem) (c : Ctx) (k : Nat) : Res (BitVec 32) :=
  (sub E m c k).bind fun d => (word E m d).bind fun w => .ok (asFloat w)

/-! ## Results -/

/-- `values_.push_back(a)` (_context.cpp:120-123): a full vector is moved. -/
def push (E : Env) (m : Mem) (w : Word) : Mem :=
  if m.vals.length < m.cap then { m with vals := m.vals ++ [w] }
  else { m with vals := m.vals ++ [w], cap := E.grow m.cap, gen := m.gen + 1 }

/-- `Overlay::patch_code` (overlay.cpp:169-173). -/
def patch (m : Mem) (i : Nat) (w : Word) : Mem := { m with code := m.code.set i w }

/-- Memory and what an `OpContext` collects (`operation_results_`, operator.h:138); `keep` tells
whether the context is an `OpContext`. -/
structure Out where
  m : Mem
  log : Code

/-- `setAtomicResult` (_context.cpp:92-95, operator.h:148-151). -/
def atomic (keep : Bool) (i : Nat) (w : Word) (o : Out) : Out :=
  ⟨patch o.m i w, if keep then o.log ++ [w] else o.log⟩

/-- `addCompoundResultPart` (_context.cpp:120-123, operator.h:169-172). -/
def part (E : Env) (keep : Bool) (w : Word) (o : Out) : Out :=
  ⟨push E o.m w, if keep then o.log ++ [w] else o.log⟩

/-- `setCompoundResultHead` (_context.cpp:112-118): a pointer to the value array in the code, the head
in the value array.  `OpContext` adds the head a second time (operator.h:164-168). -/
def head (E : Env) (keep : Bool) (i : Nat) (w : Word) (o : Out) : Out :=
  if keep then
    part E keep w ⟨push E (patch o.m i (valuePointer (BitVec.ofNat 16 o.m.vals.length))) w, o.log⟩
  else ⟨push E (patch o.m i (valuePointer (BitVec.ofNat 16 o.m.vals.length))) w, o.log⟩

/-- The parts `k`, `k + 1`, … (`n` of them), each computed from memory as it is then. -/
def parts (E : Env) (keep : Bool) (f : Mem → Nat → Res (BitVec 32)) : (n k : Nat) → Out → Res Out
  | 0, _, o => .ok o
  | n + 1, k, o => (f o.m k).bind fun x => parts E keep f n (k + 1) (part E keep (float x) o)

/-- A result of `n` numbers: `setCompoundResultHead(Object(opcode, n))` and the parts. -/
def fixed (E : Env) (keep : Bool) (i : Nat) (k : BitVec 16) (n : Nat)
    (f : Mem → Nat → Res (BitVec 32)) (o : Out) : Res Out :=
  parts E keep f n 1 (head E keep i (object k (BitVec.ofNat 8 n)) o)

/-- A result of the class `vec`: the head, a pointer to the set, the set (operators.cpp:137-145). -/
def counted (E : Env) (keep : Bool) (i : Nat) (n : Nat)
    (f : Mem → Nat → Res (BitVec 32)) (o : Out) : Res Out :=
  parts E keep f n 1
    (part E keep (set (BitVec.ofNat 8 n))
      (part E keep (iPointer (BitVec.ofNat 16 (2 + o.m.vals.length)))
        (head E keep i (object E.K.vn 1) o)))

/-! ## Operators -/

/-- `setAtomicResult(Nil); return false`. -/
def no (keep : Bool) (i : Nat) (o : Out) : Res (Out × Bool) := .ok (atomic keep i nil o, false)
/-- `return true`. -/
def yes (r : Res Out) : Res (Out × Bool) := r.bind fun o => .ok (o, true)

/-- A component of both operands. -/
def both (E : Env) (f : BitVec 32 → BitVec 32 → BitVec 32) (l r : Ctx) (m : Mem) (k : Nat) :
    Res (BitVec 32) :=
  (comp E m l k).bind fun a => (comp E m r k).bind fun b => .ok (f a b)
/-- `lhs[0].asFloat()` and a component of the other operand. -/
def left (E : Env) (f : BitVec 32 → BitVec 32 → BitVec 32) (l r : Ctx) (m : Mem) (k : Nat) :
    Res (BitVec 32) :=
  (word E m l).bind fun a => (comp E m r k).bind fun b => .ok (f (asFloat a) b)
/-- A component and `rhs[0].asFloat()`. -/
def right (E : Env) (f : BitVec 32 → BitVec 32 → BitVec 32) (l r : Ctx) (m : Mem) (k : Nat) :
    Res (BitVec 32) :=
  (comp E m l k).bind fun a => (word E m r).bind fun b => .ok (f a (asFloat b))

/-- `lhs[0].asOpcode() == …` on a word. -/
def is (w : Word) (k : BitVec 16) : Bool := asOpcode w == k

/-- `add` and `sub` (operators.cpp:101-152, 156-206): they differ in the operation on the components.
For quaternions the result is written, and then `nil` over it. -/
def addSub (E : Env) (f : BitVec 32 → BitVec 32 → BitVec 32) (keep : Bool) (i : Nat) (l r : Ctx)
    (wl wr : Word) (o : Out) : Res (Out × Bool) :=
  if is wl E.K.v3 && is wr E.K.v3 then yes (fixed E keep i E.K.v3 3 (both E f l r) o)
  else if is wl E.K.v2 && is wr E.K.v2 then yes (fixed E keep i E.K.v2 2 (both E f l r) o)
  else
    let rest : Out → Res (Out × Bool) := fun o =>
      if is wl E.K.qt && is wr E.K.qt then
        (fixed E keep i E.K.qt 4 (both E f l r) o).bind fun o => no keep i o
      else no keep i o
    if is wl E.K.vn && is wr E.K.vn then
      (sub E o.m l 1).bind fun lv => (sub E o.m r 1).bind fun rv =>
      (word E o.m lv).bind fun a => (word E o.m rv).bind fun b =>
      if getAtomCount a = getAtomCount b then
        yes (counted E keep i (getAtomCount b).toNat (both E f lv rv) o)
      else rest o
    else rest o

/-- The four components of an operand. -/
def four (E : Env) (m : Mem) (c : Ctx) : Res (List (BitVec 32)) :=
  (comp E m c 1).bind fun w => (comp E m c 2).bind fun x => (comp E m c 3).bind fun y =>
  (comp E m c 4).bind fun z => .ok [w, x, y, z]

/-- The product of two quaternions before rounding (operators.cpp:285-288): sums from the left. -/
def hamilton {F : Type} (add sub mul : F → F → F) (neg : F → F) : List F → List F → List F
  | [w1, x1, y1, z1], [w2, x2, y2, z2] =>
    [ add (sub (sub (mul (neg x1) x2) (mul y1 y2)) (mul z1 z2)) (mul w1 w2),
      add (sub (add (mul x1 w2) (mul y1 z2)) (mul z1 y2)) (mul w1 x2),
      add (add (add (mul (neg x1) z2) (mul y1 w2)) (mul z1 x2)) (mul w1 y2),
      add (add (sub (mul x1 y2) (mul y1 x2)) (mul z1 w2)) (mul w1 z2) ]
  | _, _ => []

/-- `mul` of quaternions (operators.cpp:273-288): the product, rounded. -/
def quatMul {F : Type} (add sub mul : F → F → F) (neg hundredth : F → F) (p q : List F) : List F :=
  (hamilton add sub mul neg p q).map hundredth

/-- The conjugate. -/
def conj {F : Type} (neg : F → F) : List F → List F
  | w :: v => w :: v.map neg
  | [] => []

/-- Whether the first component is negative. -/
def firstNegative {F : Type} (negative : F → Bool) : List F → Bool
  | w :: _ => negative w
  | [] => false

/-- `div` of quaternions (operators.cpp:346-376): the conjugate of the rounded product of the conjugate
of the one and the other, with the sign that makes the first component not negative (a product with
1 or -1 is the number or its opposite). -/
def quatDiv {F : Type} (add sub mul : F → F → F) (neg hundredth : F → F) (negative : F → Bool)
    (p q : List F) : List F :=
  let r := conj neg ((hamilton add sub mul neg (conj neg p) q).map hundredth)
  if firstNegative negative r then r.map neg else r

/-- A result of numbers computed beforehand. -/
def given (xs : List (BitVec 32)) (_ : Mem) (k : Nat) : Res (BitVec 32) := .of xs[k - 1]?

/-- `mul` (operators.cpp:210-301). -/
def mulOp (E : Env) (keep : Bool) (i : Nat) (l r : Ctx) (wl wr : Word) (o : Out) : Res (Out × Bool) :=
  if isFloat wl then
    if is wr E.K.v3 then yes (fixed E keep i E.K.v3 3 (left E E.A.mul l r) o)
    else if is wr E.K.v2 then yes (fixed E keep i E.K.v2 2 (left E E.A.mul l r) o)
    else if is wr E.K.vn then
      (sub E o.m r 1).bind fun rv => (word E o.m rv).bind fun b =>
      yes (counted E keep i (getAtomCount b).toNat (left E E.A.mul l rv) o)
    else no keep i o
  else if is wl E.K.v3 then
    if isFloat wr then yes (fixed E keep i E.K.v3 3 (right E E.A.mul l r) o) else no keep i o
  else if is wl E.K.v2 then
    if isFloat wr then yes (fixed E keep i E.K.v2 2 (right E E.A.mul l r) o) else no keep i o
  else if is wl E.K.vn then
    if isFloat wr then
      (sub E o.m l 1).bind fun lv => (word E o.m lv).bind fun a =>
      yes (counted E keep i (getAtomCount a).toNat (right E E.A.mul lv r) o)
    else no keep i o
  else if is wl E.K.qt && is wr E.K.qt then
    (four E o.m l).bind fun p => (four E o.m r).bind fun q =>
    yes (fixed E keep i E.K.qt 4 (given (quatMul E.A.add E.A.sub E.A.mul E.A.neg E.A.hundredth p q)) o)
  else no keep i o

/-- `rhs[0].isFloat() && rhs[0].asFloat() != 0`. -/
def divisor (E : Env) (w : Word) : Bool := isFloat w && !E.A.isZero (asFloat w)

/-- `div` (operators.cpp:305-391). -/
def divOp (E : Env) (keep : Bool) (i : Nat) (l r : Ctx) (wl wr : Word) (o : Out) : Res (Out × Bool) :=
  if is wl E.K.v3 then
    if divisor E wr then yes (fixed E keep i E.K.v3 3 (right E E.A.div l r) o) else no keep i o
  else if is wl E.K.v2 then
    if divisor E wr then yes (fixed E keep i E.K.v2 2 (right E E.A.div l r) o) else no keep i o
  else if is wl E.K.vn then
    if divisor E wr then
      (sub E o.m l 1).bind fun lv => (word E o.m lv).bind fun a =>
      yes (counted E keep i (getAtomCount a).toNat (right E E.A.div lv r) o)
    else no keep i o
  else if is wl E.K.qt && is wr E.K.qt then
    (four E o.m l).bind fun p => (four E o.m r).bind fun q =>
    yes (fixed E keep i E.K.qt 4
      (given (quatDiv E.A.add E.A.sub E.A.mul E.A.neg E.A.hundredth E.A.negative p q)) o)
  else no keep i o

/-- The squares of the differences of the components `k`, … (`n` of them), summed from the left onto
`s`. -/
def squares (E : Env) (l r : Ctx) (m : Mem) : (n k : Nat) → BitVec 32 → Res (BitVec 32)
  | 0, _, s => .ok s
  | n + 1, k, s => (both E E.A.sub l r m k).bind fun d => squares E l r m n (k + 1) (E.A.add s (E.A.mul d d))

/-- `setAtomicResult(Float(sqrt(norm2))); return true`. -/
def root (E : Env) (keep : Bool) (i : Nat) (r : Res (BitVec 32)) (o : Out) : Res (Out × Bool) :=
  r.bind fun s => .ok (atomic keep i (float (E.A.sqrt s)) o, true)

/-- `d1 * d1 + …`, without a zero to start from (operators.cpp:405, 415). -/
def firstSquare (E : Env) (l r : Ctx) (m : Mem) (n : Nat) : Res (BitVec 32) :=
  (both E E.A.sub l r m 1).bind fun d => squares E l r m n 2 (E.A.mul d d)

/-- The angle between two quaternions, `two` and `one` being numbers (operators.cpp:450-451). -/
def angle (A : Arith) : List (BitVec 32) → List (BitVec 32) → BitVec 32
  | [w1, x1, y1, z1], [w2, x2, y2, z2] =>
    let ip := A.add (A.add (A.add (A.mul x1 x2) (A.mul y1 y2)) (A.mul z1 z2)) (A.mul w1 w2)
    A.acos (A.sub (A.mul (A.mul 0x40000000 ip) ip) 0x3F800000)
  | _, _ => 0

/-- `dis` (operators.cpp:395-459).  For quaternions the result is written, and then `nil` over it. -/
def disOp (E : Env) (keep : Bool) (i : Nat) (l r : Ctx) (wl wr : Word) (o : Out) : Res (Out × Bool) :=
  if is wl E.K.v3 && is wr E.K.v3 then root E keep i (firstSquare E l r o.m 2) o
  else if is wl E.K.v2 && is wr E.K.v2 then root E keep i (firstSquare E l r o.m 1) o
  else
    let rest : Res (Out × Bool) :=
      if is wl E.K.qt && is wr E.K.qt then
        (four E o.m l).bind fun p => (four E o.m r).bind fun q =>
        no keep i (atomic keep i (float (angle E.A p q)) o)
      else no keep i o
    if is wl E.K.vn && is wr E.K.vn then
      (sub E o.m l 1).bind fun lv => (sub E o.m r 1).bind fun rv =>
      (word E o.m lv).bind fun a => (word E o.m rv).bind fun b =>
      if getAtomCount a = getAtomCount b then
        root E keep i (squares E lv rv o.m (getAtomCount a).toNat 1 0) o
      else rest
    else rest

/-- The overload registered for an operator (usr_operators.cpp:108-151, 216-225). -/
def overload (E : Env) : Op → Bool → Nat → Ctx → Ctx → Word → Word → Out → Res (Out × Bool)
  | .add => addSub E E.A.add
  | .sub => addSub E E.A.sub
  | .mul => mulOp E
  | .div => divOp E
  | .dis => disOp E

/-- Numbers, timestamps and durations. -/
def plain (w : Word) : Bool := isFloat w || getDescriptor w == 0xC7 || getDescriptor w == 0xD0

/-- `Operator::operator()` (operator.h:173-179) on the operator at `c` with its operands: the operator
of the executive, which gives `nil` and fails unless both operands are plain (operator.cpp:392-713),
then the overload. -/
def apply (E : Env) (op : Op) (keep : Bool) (c : Ctx) (o : Out) : Res (Out × Bool) :=
  (sub E o.m c 1).bind fun l => (sub E o.m c 2).bind fun r =>
  (word E o.m l).bind fun wl => (word E o.m r).bind fun wr =>
  match if plain wl && plain wr then E.std op wl wr else none with
  | some w => .ok (atomic keep c.i w o, true)
  | none =>
    -- the overload looks at its operands anew, after `nil` was written over the operator
    let o := atomic keep c.i nil o
    (sub E o.m c 1).bind fun l => (sub E o.m c 2).bind fun r =>
    (word E o.m l).bind fun wl => (word E o.m r).bind fun wr =>
    overload E op keep c.i l r wl wr o

/-! ## Evaluation -/

/-- The operator a word names, by its opcode. -/
structure Opc where
  add : BitVec 16
  sub : BitVec 16
  mul : BitVec 16
  div : BitVec 16
  dis : BitVec 16

def Opc.of (O : Opc) : Op → BitVec 16
  | .add => O.add
  | .sub => O.sub
  | .mul => O.mul
  | .div => O.div
  | .dis => O.dis

def Opc.find (O : Opc) (k : BitVec 16) : Option Op :=
  [Op.add, .sub, .mul, .div, .dis].find? fun op => O.of op == k

/-- The structures whose members are evaluated (hlp_context.cpp:175-185). -/
def composite (d : BitVec 8) : Bool :=
  [0xC3, 0xC4, 0xC9, 0xCA, 0xCB, 0xCC, 0xCD, 0xCE, 0xC8, 0xC1, 0xC2].any (· == d)

/-- Members `k`, `k + 1`, … (`n` of them) evaluated in turn. -/
def members (f : Ctx → Mem → Res Mem) (E : Env) (c : Ctx) : (n k : Nat) → Mem → Res Mem
  | 0, _, m => .ok m
  | n + 1, k, m => (sub E m c k).bind fun d => (f d m).bind fun m => members f E c n (k + 1) m

/-- `HLPContext::evaluate_no_dereference` (hlp_context.cpp:140-190).  Operators other than the five
are undefined here. -/
def eval (E : Env) (O : Opc) : Nat → Ctx → Mem → Res Mem
  | 0, _, _ => .ub
  | n + 1, c, m =>
    if c.base ≠ .code then .ok m
    else (word E m c).bind fun w =>
      if getDescriptor w = 0xC5 then
        (members (eval E O n) E c (getAtomCount w).toNat 1 m).bind fun m =>
        match O.find (asOpcode w) with
        | none => .ub
        | some op => (apply E op false c ⟨m, []⟩).bind fun r => if r.2 then .ok r.1.m else .fail
      else if composite (getDescriptor w) then members (eval E O n) E c (getAtomCount w).toNat 1 m
      else .ok m

end Verif.Usr
