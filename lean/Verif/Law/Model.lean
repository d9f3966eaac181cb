import Verif.Usr.Model
import Verif.Match.Model
/-!
# The law of a learnt model

Transcription of `CTPX::find_guard_builder` (`/repo/r_exec/pattern_extractor.cpp:1182-1335`), of
`OpContext::build_and_evaluate_expression` (`/repo/r_exec/operator.cpp:115-188`) and of
`StructureValue::copy_structure` (`/repo/r_exec/binding_map.cpp:242-260`).  The operators are those of
`Verif.Usr`, the comparisons those of `Verif.Match`.

Simplifications: indices are natural numbers; `none` stands for undefined behaviour (reading outside
an object) and for recursion deeper than the given bound.  The overlay of an expression has code of its
own, of one word, over which the operator writes; in the model it writes over the first word of the
expression, which is not read any more.  Of a guard builder, the law is kept: the offsets in time it is
given are those of `Verif.Guards.learn`.
-/
namespace Verif.Law
open Verif.Atom hiding Val kept
open Verif.Words Verif.Usr

/-- `MK_VAL_VALUE`, `CMD_ARGS`, `I_HLP_TPL_ARGS`, `I_HLP_EXPOSED_ARGS` (replicode_defs.h:183, 192,
230-231). -/
def mkValValue : Nat := 3
def cmdArgs : Nat := 2
def tplArgs : Nat := 2
def exposedArgs : Nat := 3

/-! ## Copying a structure -/

/-- The words `k`, `k + 1`, … (`n` of them) of the structure at `idx` are copied to `start + k`, …; what
pointers lead to is copied by `f` to `ext` (binding_map.cpp:249-259). -/
def copyLoop (f : Code → Nat → Nat → Option (Code × Nat)) (src : Code) (idx start : Nat) :
    (n k : Nat) → Code → Nat → Option (Code × Nat)
  | 0, _, dst, ext => some (dst, ext)
  | n + 1, k, dst, ext => match src[idx + k]? with
    | none => none
    | some a =>
      if getDescriptor a = 0x84 then
        match f (put dst (start + k) (iPointer (BitVec.ofNat 16 ext))) ext (asIndex a).toNat with
        | none => none
        | some (dst, ext) => copyLoop f src idx start n (k + 1) dst ext
      else copyLoop f src idx start n (k + 1) (put dst (start + k) a) ext

/-- `StructureValue::copy_structure` (binding_map.cpp:242-260): destination and extent index. -/
def copy (src : Code) : Nat → Code → Nat → Nat → Option (Code × Nat)
  | 0, _, _, _ => none
  | n + 1, dst, ext, idx => match src[idx]? with
    | none => none
    | some h => copyLoop (copy src n) src idx ext ((getAtomCount h).toNat + 1) 0 dst (ext + (1 + (getAtomCount h).toNat))

/-! ## Computing the difference and the quotient -/

/-- One operand of the expression: a structure is copied, with a pointer to it in word `k`; another
value is copied to where the code ends (operator.cpp:155-171); `skip` words are left free. -/
def operand (N : Nat) (c : Code) (w : Word) (k skip : Nat) (dst : Code) (ext : Nat) : Option (Code × Nat) :=
  if getDescriptor w = 0x84 then copy c N (put dst k (iPointer (BitVec.ofNat 16 (ext + skip)))) (ext + skip) (asIndex w).toNat
  else copy [w] N dst ext 0

/-- `OpContext::build_expression_object` (operator.cpp:143-174): `(op q1 q0)`. -/
def expression (N : Nat) (op : BitVec 16) (c0 c1 : Code) (w0 w1 : Word) : Option Code :=
  match operand N c1 w1 1 2 [operator op 2] 1 with
  | none => none
  | some (dst, ext) => (operand N c0 w0 2 0 dst ext).map (·.1)

/-- What an operator on numbers gives (operator.cpp:116-138), if it is one of those computed there;
`[]` if there is no quotient. -/
def numbersOf (A : Arith) : Op → BitVec 32 → BitVec 32 → Option Code
  | .add, q0, q1 => some [float (A.add q1 q0)]
  | .sub, q0, q1 => some [float (A.sub q1 q0)]
  | .mul, q0, q1 => some [float (A.mul q1 q0)]
  | .div, q0, q1 => if A.isZero q0 then some [] else some [float (A.div q1 q0)]
  | .dis, _, _ => none

/-- `OpContext::evaluate_expression` (operator.cpp:176-192): the words the operator gave, whether it
succeeded or not; nothing if an operand cannot be evaluated. -/
def evaluate (E : Env) (O : Usr.Opc) (N : Nat) (op : Op) (e : Code) : Option Code :=
  match members (eval E O N) E ⟨.code, 0⟩ 2 1 ⟨e, [], 0, 0⟩ with
  | .ub => none
  | .fail => some []
  | .ok m => match apply E op true ⟨.code, 0⟩ ⟨m, []⟩ with
    | .ok (o, _) => some o.log
    | _ => none

/-- `OpContext::build_and_evaluate_expression` (operator.cpp:115-141). -/
def compound (E : Env) (O : Usr.Opc) (N : Nat) (op : Op) (c0 c1 : Code) (w0 w1 : Word) : Option Code :=
  (expression N (O.of op) c0 c1 w0 w1).bind (evaluate E O N op)

def result (E : Env) (O : Usr.Opc) (N : Nat) (op : Op) (c0 c1 : Code) : Option Code :=
  match c0[mkValValue]?, c1[mkValValue]? with
  | some w0, some w1 =>
    if isFloat w0 && isFloat w1 then
      match numbersOf E.A op (asFloat w0) (asFloat w1) with
      | some r => some r
      | none => compound E O N op c0 c1 w0 w1
    else compound E O N op c0 c1 w0 w1
  | _, _ => none

/-- From the first word that is not `nil` on (pattern_extractor.cpp:1197-1202). -/
def valid (r : Code) : Code := r.dropWhile (· == nil)

/-- `searched_for` (pattern_extractor.cpp:1204-1207); `[]` if there is no valid result. -/
def searched (N : Nat) (r : Code) : Option Code :=
  match valid r with
  | [] => some []
  | w :: ws => (copy (w :: ws) N [] 0 0).map (·.1)

/-! ## Looking for it among the arguments -/

/-- The cause and what is searched for, as objects 0 and 1. -/
def heap (cause s : Code) : Match.Heap := fun i => if i = 0 then some ⟨cause, [], []⟩ else if i = 1 then some ⟨s, [], []⟩ else none

/-- Whether the argument in word `k` is what is searched for (pattern_extractor.cpp:1209-1219). -/
def argMatch (oc : Match.Opc) (t : Match.Tol) (N : Nat) (cause s : Code) (k : Nat) : Option Bool :=
  match cause[k]? with
  | none => none
  | some w =>
    if getDescriptor w = 0x84 then
      Match.matchStructure (heap cause s) oc t (getAtomCount w != 0) N 0 (asIndex w).toNat 1 0
    else Match.matchFrom (heap cause s) oc t false N 0 k 0 1 0 (getAtomCount w).toNat

/-- The first of the words `k`, `k + 1`, … (`n` of them) that matches. -/
def firstArg (f : Nat → Option Bool) : (n k : Nat) → Option (Option Nat)
  | 0, _ => some none
  | n + 1, k => match f k with
    | none => none
    | some true => some (some k)
    | some false => firstArg f n (k + 1)

/-- What a guard builder is made for: the value is that before plus, or times, the argument in a word
of the cause (`ACGuardBuilder`, `MCGuardBuilder`), plus the value of the cause times the period
(`SGuardBuilder`), times or plus a constant (`MGuardBuilder`, `AGuardBuilder`). -/
inductive Law
  | addArg (k : Nat)
  | mulArg (k : Nat)
  | speed
  | mulConst (c : BitVec 32)
  | addConst (c : BitVec 32)
deriving DecidableEq

/-- `Opcodes::Cmd`, `IMdl`, `MkVal`. -/
structure Kinds where
  cmd : BitVec 16
  imdl : BitVec 16
  mkVal : BitVec 16

/-- The setting: arithmetic, classes, the conversion of durations to numbers, tolerances, opcodes. -/
structure Setup where
  E : Env
  O : Usr.Opc
  oc : Match.Opc
  t : Match.Tol
  G : Kinds
  cvt : Int → BitVec 32

/-- One of the two loops for commands (pattern_extractor.cpp:1191-1225, 1228-1262). -/
def cmdLoop (S : Setup) (N : Nat) (op : Op) (c0 c1 cause : Code) : Option (Option Nat) :=
  match cause[cmdArgs]? with
  | none => none
  | some p => match cause[(asIndex p).toNat]? with
    | none => none
    | some h => match (result S.E S.O N op c0 c1).bind (searched N) with
      | none => none
      | some [] => some none
      | some s => firstArg (argMatch S.oc S.t N cause s) (getAtomCount h).toNat ((asIndex p).toNat + 1)

/-- Form 1 for commands (pattern_extractor.cpp:1186-1263). -/
def cmdLaw (S : Setup) (N : Nat) (c0 c1 cause : Code) : Option (Option Law) :=
  match cmdLoop S N .sub c0 c1 cause with
  | none => none
  | some (some k) => some (some (.addArg k))
  | some none => match cmdLoop S N .div c0 c1 cause with
    | none => none
    | some (some k) => some (some (.mulArg k))
    | some none => some none

/-- `s.isFloat() && Utils::Equal(s.asFloat(), searched_for)` on the word `k`. -/
def numMatch (t : Match.Tol) (c : Code) (x : BitVec 32) (k : Nat) : Option Bool :=
  match c[k]? with
  | none => none
  | some w => some (isFloat w && Match.equal t (asFloat w) x)

/-- `BindingMap::get_abstracted_ihlp_exposed_args_index` (binding_map.cpp:483-491). -/
def abstracted (c : Code) : Option Nat :=
  match c[tplArgs]? with
  | none => none
  | some p => match c[(asIndex p).toNat]? with
    | none => none
    | some h => some ((asIndex p).toNat + 1 + (getAtomCount h).toNat)

/-- Form 1 for instances of models (pattern_extractor.cpp:1264-1305).  The second loop compares an index
with a count: it runs from the word after the set's head to the word whose index is the count. -/
def imdlLaw (S : Setup) (c0 c1 cause : Code) : Option (Option Law) :=
  match c0[mkValValue]?, c1[mkValValue]?, cause[exposedArgs]? with
  | some w0, some w1, some p => match cause[(asIndex p).toNat]?, abstracted cause with
    | some h, some b =>
      let e := (asIndex p).toNat
      let n := (getAtomCount h).toNat
      match firstArg (numMatch S.t cause (S.E.A.sub (asFloat w1) (asFloat w0))) n (e + 1) with
      | none => none
      | some (some k) => some (some (.addArg (b + (k - e))))
      | some none =>
        if S.E.A.isZero (asFloat w0) then some none
        else match firstArg (numMatch S.t cause (S.E.A.div (asFloat w1) (asFloat w0))) (n - e) (e + 1) with
          | none => none
          | some (some k) => some (some (.mulArg (k - e + b)))
          | some none => some none
    | _, _ => none
  | _, _, _ => none

/-- Forms 2 and 3 (pattern_extractor.cpp:1307-1332). -/
def valueLaw (S : Setup) (period : Int) (c0 c1 cause : Code) : Option (Option Law) :=
  match c0[mkValValue]?, c1[mkValValue]?, cause[mkValValue]? with
  | some w0, some w1, some s =>
    if isFloat s then
      if Match.equal S.t (asFloat s) (S.E.A.div (S.E.A.sub (asFloat w1) (asFloat w0)) (S.cvt period)) then some (some .speed)
      else if S.E.A.isZero (asFloat w0) then some (some (.addConst (S.E.A.sub (asFloat w1) (asFloat w0))))
      else some (some (.mulConst (S.E.A.div (asFloat w1) (asFloat w0))))
    else some none
  | _, _, _ => none

/-- `CTPX::find_guard_builder` (pattern_extractor.cpp:1182-1335) on the payloads of the premise, of the
consequent and of the cause. -/
def find (S : Setup) (N : Nat) (period : Int) (c0 c1 cause : Code) : Option (Option Law) :=
  match cause[0]? with
  | none => none
  | some h =>
    if asOpcode h = S.G.cmd then cmdLaw S N c0 c1 cause
    else if asOpcode h = S.G.imdl then imdlLaw S c0 c1 cause
    else if asOpcode h = S.G.mkVal then valueLaw S period c0 c1 cause
    else some none

end Verif.Law
