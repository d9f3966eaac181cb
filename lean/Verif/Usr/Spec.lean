import Verif.Usr.Model
/-!
# What expressions over vectors stand for
-/
namespace Verif.Usr
open Verif.Atom Verif.Words

/-- A number, a value of a class with a fixed number of components, a vector of any dimension. -/
inductive Val
  | num (x : BitVec 32)
  | obj (k : BitVec 16) (xs : List (BitVec 32))
  | vec (xs : List (BitVec 32))
deriving DecidableEq

/-- A number as an atom holds it: the last bit is lost. -/
def kept (x : BitVec 32) : BitVec 32 := BitVec.ofNat 32 (x.toNat / 2 * 2)

/-- The number in a word. -/
def num? (w : Word) : Option (BitVec 32) := if w.toNat < 2 ^ 31 then some (BitVec.ofNat 32 (w.toNat * 2)) else none

/-- Consecutive numbers. -/
def nums (L : Code) : (i n : Nat) → Option (List (BitVec 32))
  | _, 0 => some []
  | i, n + 1 => (L[i]?).bind fun w => (num? w).bind fun x => (nums L (i + 1) n).map (x :: ·)

/-- The value of the class `vec` whose set is at a position. -/
def setAt (L : Code) (p : Nat) : Option Val :=
  (L[p]?).bind fun s => if s = set (BitVec.ofNat 8 (s.toNat % 256)) then (nums L (p + 1) (s.toNat % 256)).map .vec else none

/-- The structure at a position. -/
def structAt (K : Classes) (L : Code) (p : Nat) : Option Val :=
  (L[p]?).bind fun w =>
    if w = object K.v3 3 then (nums L (p + 1) 3).map (.obj K.v3)
    else if w = object K.v2 2 then (nums L (p + 1) 2).map (.obj K.v2)
    else if w = object K.qt 4 then (nums L (p + 1) 4).map (.obj K.qt)
    else if w = object K.vn 1 then
      (L[p + 1]?).bind fun u => if u = iPointer (BitVec.ofNat 16 (u.toNat % 4096)) then setAt L (u.toNat % 4096) else none
    else none

/-- The value at a position: a number or a structure. -/
def thingAt (K : Classes) (L : Code) (p : Nat) : Option Val :=
  match (L[p]?).bind num? with
  | some x => some (.num x)
  | none => structAt K L p

/-- Component by component. -/
def zip (f : BitVec 32 → BitVec 32 → BitVec 32) (xs ys : List (BitVec 32)) : List (BitVec 32) :=
  (xs.zipWith f ys).map kept

/-- The sum of the squares, from the left. -/
def norm2 (A : Arith) (s : BitVec 32) (ds : List (BitVec 32)) : BitVec 32 := ds.foldl (fun s d => A.add s (A.mul d d)) s

/-- The product of quaternions, each component rounded to two decimals. -/
def qmul (A : Arith) : List (BitVec 32) → List (BitVec 32) → List (BitVec 32)
  | [a, b, c, d], [e, f, g, h] =>
    [ A.add (A.sub (A.sub (A.mul (A.neg b) f) (A.mul c g)) (A.mul d h)) (A.mul a e),
      A.add (A.sub (A.add (A.mul b e) (A.mul c h)) (A.mul d g)) (A.mul a f),
      A.add (A.add (A.add (A.mul (A.neg b) h) (A.mul c e)) (A.mul d f)) (A.mul a g),
      A.add (A.add (A.sub (A.mul b g) (A.mul c f)) (A.mul d e)) (A.mul a h) ].map A.hundredth
  | _, _ => []

/-- The conjugate. -/
def qconj (A : Arith) : List (BitVec 32) → List (BitVec 32)
  | [a, b, c, d] => [a, A.neg b, A.neg c, A.neg d]
  | _ => []

/-- The quotient of quaternions: the conjugate of the product of the conjugate of the first and the
second, or its opposite if its first component is negative. -/
def qdiv (A : Arith) (p q : List (BitVec 32)) : List (BitVec 32) :=
  match qconj A (qmul A (qconj A p) q) with
  | [a, b, c, d] => if A.negative a then [A.neg a, A.neg b, A.neg c, A.neg d] else [a, b, c, d]
  | _ => []

/-- The number two numbers give. -/
def numbers (A : Arith) : Op → BitVec 32 → BitVec 32 → Option (BitVec 32)
  | .add, a, b => some (A.add a b)
  | .sub, a, b => some (A.sub a b)
  | .mul, a, b => some (A.mul a b)
  | .div, a, b => if A.isZero b then none else some (A.div a b)
  | .dis, _, _ => none

/-- What an operator gives for two values; with `q`, also sums, differences of quaternions. -/
def compute (A : Arith) (K : Classes) (q : Bool) : Op → Val → Val → Option Val
  | op, .num a, .num b => (numbers A op a b).map fun x => .num (kept x)
  | .add, .obj k xs, .obj j ys => if k = j ∧ (q ∨ k ≠ K.qt) then some (.obj k (zip A.add xs ys)) else none
  | .sub, .obj k xs, .obj j ys => if k = j ∧ (q ∨ k ≠ K.qt) then some (.obj k (zip A.sub xs ys)) else none
  | .add, .vec xs, .vec ys => if xs.length = ys.length then some (.vec (zip A.add xs ys)) else none
  | .sub, .vec xs, .vec ys => if xs.length = ys.length then some (.vec (zip A.sub xs ys)) else none
  | .mul, .num a, .obj k xs => if k ≠ K.qt then some (.obj k (xs.map fun x => kept (A.mul a x))) else none
  | .mul, .num a, .vec xs => some (.vec (xs.map fun x => kept (A.mul a x)))
  | .mul, .obj k xs, .num a => if k ≠ K.qt then some (.obj k (xs.map fun x => kept (A.mul x a))) else none
  | .mul, .vec xs, .num a => some (.vec (xs.map fun x => kept (A.mul x a)))
  | .mul, .obj k xs, .obj j ys => if k = K.qt ∧ j = K.qt then some (.obj K.qt ((qmul A xs ys).map kept)) else none
  | .div, .obj k xs, .obj j ys => if k = K.qt ∧ j = K.qt then some (.obj K.qt ((qdiv A xs ys).map kept)) else none
  | .div, .obj k xs, .num a => if k ≠ K.qt ∧ A.isZero a = false then some (.obj k (xs.map fun x => kept (A.div x a))) else none
  | .div, .vec xs, .num a => if A.isZero a = false then some (.vec (xs.map fun x => kept (A.div x a))) else none
  | .dis, .obj k xs, .obj j ys =>
    if k = j ∧ k ≠ K.qt then
      match xs.zipWith A.sub ys with
      | d :: ds => some (.num (kept (A.sqrt (norm2 A (A.mul d d) ds))))
      | [] => none
    else none
  | .dis, .vec xs, .vec ys =>
    if xs.length = ys.length then some (.num (kept (A.sqrt (norm2 A 0 (xs.zipWith A.sub ys))))) else none
  | _, _, _ => none

/-- The value of an operand: a number, the value of a variable, what a pointer leads to. -/
def slotVal (E : Env) (C : Code) (f : Nat → Option Val) (s : Nat) : Option Val :=
  (C[s]?).bind fun w =>
    if w.toNat < 2 ^ 31 then (num? w).map .num
    else if w = vlPointer (BitVec.ofNat 16 (w.toNat % 4096)) then (E.bind (w.toNat % 4096)).bind fun L => thingAt E.K L 0
    else if w = iPointer (BitVec.ofNat 16 (w.toNat % 4096)) then f (w.toNat % 4096)
    else none

/-- The value of the expression or structure at a position of the code, as it was before evaluation. -/
def valAt (E : Env) (O : Opc) (q : Bool) (C : Code) : Nat → Nat → Option Val
  | 0, _ => none
  | n + 1, p => (C[p]?).bind fun w =>
    if getDescriptor w = 0xC5 then
      if getAtomCount w = 2 then
        (O.find (asOpcode w)).bind fun op =>
        (slotVal E C (valAt E O q C n) (p + 1)).bind fun a =>
        (slotVal E C (valAt E O q C n) (p + 2)).bind fun b => compute E.A E.K q op a b
      else none
    else structAt E.K C p

/-- What evaluation leaves at a position: the number, or a pointer to the value in the value array. -/
def Left (K : Classes) (m : Mem) (p : Nat) : Val → Prop
  | .num x => ∃ w, m.code[p]? = some w ∧ num? w = some x
  | v => ∃ j, j < 4096 ∧ m.code[p]? = some (valuePointer (BitVec.ofNat 16 j)) ∧ structAt K m.vals j = some v

/-- The classes are told apart by their opcodes, which have twelve bits. -/
def Classes.apart (K : Classes) : Prop :=
  [K.v3, K.v2, K.vn, K.qt].Pairwise (· ≠ ·) ∧ ∀ k ∈ [K.v3, K.v2, K.vn, K.qt], k.toNat < 4096

/-- The operators of the executive compute with numbers. -/
def Env.standard (E : Env) : Prop :=
  ∀ op wl wr a b x, num? wl = some a → num? wr = some b → numbers E.A op a b = some x → E.std op wl wr = some (float x)

/-- The words written for a value. -/
def cost : Val → Nat
  | .num _ => 0
  | .obj _ xs => xs.length + 1
  | .vec xs => xs.length + 3

/-- The words an operand's evaluation may write. -/
def slotCost (C : Code) (g : Nat → Nat) (s : Nat) : Nat :=
  match C[s]? with
  | some w => if w = iPointer (BitVec.ofNat 16 (w.toNat % 4096)) then g (w.toNat % 4096) else 0
  | none => 0

/-- The words that evaluation may write: those of the values of the operators. -/
def costAt (E : Env) (O : Opc) (C : Code) : Nat → Nat → Nat
  | 0, _ => 0
  | n + 1, p =>
    if (C[p]?).map getDescriptor = some 0xC5 then
      slotCost C (costAt E O C n) (p + 1) + slotCost C (costAt E O C n) (p + 2) +
        match valAt E O false C (n + 1) p with
        | some v => cost v
        | none => 0
    else 0

/-- C152: evaluating an expression over numbers, vectors and quaternions leaves its value, computed
component by component, in an overlay that has just been made. -/
def C152_full : Prop :=
  ∀ (E : Env) (O : Opc) (C V : Code) (n p : Nat) (v : Val), E.K.apart → E.standard → (∀ k, 0 < k → k < E.grow k) → V.length = 128 →
    (C[p]?).map getDescriptor = some 0xC5 → valAt E O true C n p = some v →
    ∃ N, ∀ M ≥ N, ∃ m, eval E O M ⟨.code, p⟩ ⟨C, V, V.length, 0⟩ = .ok m ∧ Left E.K m p v

end Verif.Usr
