import Verif.Words.Model
import Verif.Atom.Float
/-!
# Matching of facts

Transcription of `_Fact::Match`, `MatchAtom`, `MatchStructure`, `MatchObject`
(r_exec/factory.cpp:264-375) over a heap of objects, together with the comparisons
`Utils::Equal` and `Utils::Synchronous` (r_code/code_utils.cpp:117-127).

Simplifications: indices are natural numbers (no `uint16` wrap-around, which needs code of more
than 65536 words); instants are compared as integers (no 64-bit overflow of the difference).
Recursion is bounded by a fuel argument: `none` means undefined behaviour (reading outside an
object) or fuel exhausted; results `some b` do not depend on the fuel.
-/
namespace Verif.Match
open Verif.Atom Verif.Words

/-- An object: `code_`, `references_` (r_code/object.h:385-404), and `ICST::components_`
(r_exec/factory.h:679; empty for other objects). -/
structure Obj where
  code : Code
  refs : List Nat := []
  comps : List Nat := []
  deriving DecidableEq, Repr

/-- Objects by identity. -/
abbrev Heap := Nat → Option Obj

/-- The opcodes the functions test (r_exec/opcodes.h); their numbers come from the user classes. -/
structure Opc where
  ent : BitVec 16
  ont : BitVec 16
  mdl : BitVec 16
  cst : BitVec 16
  imdl : BitVec 16
  icst : BitVec 16
  mkVal : BitVec 16
  fact : BitVec 16
  antiFact : BitVec 16
  deriving DecidableEq, Repr

/-- `Utils::FloatTolerance` (IEEE bits) and `Utils::TimeTolerance` (code_utils.cpp:97-98). -/
structure Tol where
  float : BitVec 32
  time : Int
  deriving DecidableEq, Repr

/-! ### `Utils::Equal` -/

/-- Rounding of a natural number of units of 2^-149 to 24 significant bits, nearest even: the
result of a single-precision subtraction. -/
def round24 (n : Nat) : Nat :=
  if n < 16777216 then n
  else
    let e := Nat.log2 n - 23
    let q := n / 2 ^ e
    let r := n % 2 ^ e
    (if 2 * r > 2 ^ e ∨ (2 * r = 2 ^ e ∧ q % 2 = 1) then q + 1 else q) * 2 ^ e

/-- First magnitude that is not a finite single (2^128 in units of 2^-149). -/
def overflow : Nat := 2 ^ 277

/-- Value of a finite single in units of 2^-149. -/
def value (f : BitVec 32) : Int := if sign f = 0 then (mag f : Int) else -(mag f : Int)

def isNaN (f : BitVec 32) : Bool := expo f == 255 && mant f != 0
def isInf (f : BitVec 32) : Bool := expo f == 255 && mant f == 0

/-- `l == r` on floats. -/
def feq (l r : BitVec 32) : Bool :=
  if isNaN l || isNaN r then false
  else if isInf l || isInf r then l == r
  else value l == value r

/-- `fabs(l - r) < tol`: false if a NaN is involved or the difference is infinite (or
undefined, `inf - inf`). -/
def closer (tol l r : BitVec 32) : Bool :=
  if isNaN tol || isNaN l || isNaN r || isInf l || isInf r then false
  else
    let d := round24 (value l - value r).natAbs
    if d ≥ overflow then false
    else if isInf tol then sign tol == 0
    else sign tol == 0 && decide (d < mag tol)

/-- `Utils::Equal` (code_utils.cpp:117-122). -/
def equal (t : Tol) (l r : BitVec 32) : Bool := feq l r || closer t.float l r

/-- `Utils::Synchronous` (code_utils.cpp:124-127). -/
def synchronous (t : Tol) (l r : BitVec 64) : Bool :=
  decide (((l.toInt - r.toInt).natAbs : Int) < t.time)

/-! ### Matching -/

/-- `lhs->code(i)`. -/
def word (h : Heap) (o i : Nat) : Option Word := (h o).bind fun x => x.code[i]?
/-- `lhs->get_reference(i)`. -/
def ref (h : Heap) (o i : Nat) : Option Nat := (h o).bind fun x => x.refs[i]?
/-- `Utils::GetTimestamp(&lhs->code(i))` (code_utils.cpp:129-132). -/
def timeAt (h : Heap) (o i : Nat) : Option (BitVec 64) := (h o).bind fun x => getInt64 x.code (i + 1)

/-- T_WILDCARD or WILDCARD. -/
def isWild (w : Word) : Bool := getDescriptor w == 0x83 || getDescriptor w == 0x82
/-- VL_PTR. -/
def isVar (w : Word) : Bool := getDescriptor w == 0x86
/-- I_PTR. -/
def isIPtr (w : Word) : Bool := getDescriptor w == 0x84
/-- R_PTR. -/
def isRPtr (w : Word) : Bool := getDescriptor w == 0x85

/-- `_Fact::MatchAtom` (factory.cpp:338-347). -/
def matchAtom (t : Tol) (l r : Word) : Bool :=
  l == r || (isFloat l && isFloat r && equal t (asFloat l) (asFloat r))

/-- Ent, Ont, Mdl, Cst: compared by identity (factory.cpp:368-373). -/
def byIdentity (oc : Opc) (w : Word) : Bool :=
  asOpcode w == oc.ent || asOpcode w == oc.ont || asOpcode w == oc.mdl || asOpcode w == oc.cst

/-- The test of factory.cpp:272-284: in strict mode, variables must be on both sides. -/
def sameState (strict : Bool) (wl wr : Word) : Bool :=
  !strict || isWild wl || isWild wr || isVar wl == isVar wr

/-- The switch of factory.cpp:286-331 for one pair of words. `st` and `ob` are the results of
`MatchStructure` and `MatchObject` on what the pointers lead to. -/
def matchWord (t : Tol) (strict : Bool) (wl wr : Word) (st ob : Option Bool) : Option Bool :=
  if !sameState strict wl wr then some false
  else if isWild wl || isVar wl then some true
  else if isIPtr wl then
    if isIPtr wr then st else some (isWild wr || isVar wr)
  else if isRPtr wl then
    if isRPtr wr then ob else some (isWild wr || isVar wr)
  else some (isWild wr || isVar wr || matchAtom t wl wr)

/-- `if (!…) return false;` and then the tail call (factory.cpp:333-335). -/
def andThen (a b : Option Bool) : Option Bool :=
  match a with
  | none => none
  | some false => some false
  | some true => b

mutual
/-- `_Fact::Match` (factory.cpp:264-336); `k` is `lhs_index`, `rk` is `rhs_index`. -/
def matchFrom (h : Heap) (oc : Opc) (t : Tol) (strict : Bool) :
    (fuel : Nat) → (l base k r rk arity : Nat) → Option Bool
  | 0, _, _, _, _, _, _ => none
  | fuel + 1, l, base, k, r, rk, arity =>
    match word h l (base + k), word h r rk with
    | some wl, some wr =>
      andThen
        (matchWord t strict wl wr
          (matchStructure h oc t strict fuel l (asIndex wl).toNat r (asIndex wr).toNat)
          (match ref h l (asIndex wl).toNat, ref h r (asIndex wr).toNat with
           | some a, some b => matchObject h oc t strict fuel a b
           | _, _ => none))
        (if k = arity then some true
         else matchFrom h oc t strict fuel l base (k + 1) r (rk + 1) arity)
    | _, _ => none
termination_by structural fuel => fuel

/-- `_Fact::MatchStructure` (factory.cpp:349-362); always called with `lhs_index = 0`. -/
def matchStructure (h : Heap) (oc : Opc) (t : Tol) (strict : Bool) :
    (fuel : Nat) → (l base r ri : Nat) → Option Bool
  | 0, _, _, _, _ => none
  | fuel + 1, l, base, r, ri =>
    match word h l base, word h r ri with
    | some wl, some wr =>
      if wl ≠ wr then some false
      else if getAtomCount wl = 0 then some true
      else if getDescriptor wl = 0xC7 then
        match timeAt h l base, timeAt h r ri with
        | some a, some b => some (synchronous t a b)
        | _, _ => none
      else matchFrom h oc t strict fuel l base 1 r (ri + 1) (getAtomCount wl).toNat
    | _, _ => none
termination_by structural fuel => fuel

/-- `_Fact::MatchObject` (factory.cpp:364-375). -/
def matchObject (h : Heap) (oc : Opc) (t : Tol) (strict : Bool) :
    (fuel : Nat) → (l r : Nat) → Option Bool
  | 0, _, _ => none
  | fuel + 1, l, r =>
    match word h l 0, word h r 0 with
    | some wl, some wr =>
      if wl ≠ wr then some false
      else if byIdentity oc wl then some (l == r)
      else matchFrom h oc t strict fuel l 0 1 r 1 (getAtomCount wl).toNat
    | _, _ => none
termination_by structural fuel => fuel
end

end Verif.Match
