import Verif.Law.Model
import Verif.Usr.Spec
/-!
# What a law says of a change
-/
namespace Verif.Law
open Verif.Atom hiding Val kept
open Verif.Words Verif.Usr

/-- The value in a word: a number, or the structure a pointer leads to. -/
def valueIn (K : Classes) (c : Code) (k : Nat) : Option Val :=
  (c[k]?).bind fun w =>
    if w.toNat < 2 ^ 31 then (num? w).map .num
    else if w = iPointer (BitVec.ofNat 16 (w.toNat % 4096)) then structAt K c (w.toNat % 4096)
    else none

/-- Numbers that are the same or closer than the tolerance. -/
def near (t : Match.Tol) (x y : BitVec 32) : Bool := x == y || Match.equal t x y

def nearAll (t : Match.Tol) : List (BitVec 32) → List (BitVec 32) → Bool
  | [], [] => true
  | x :: xs, y :: ys => near t x y && nearAll t xs ys
  | _, _ => false

/-- Values of the same class whose components are near. -/
def close (t : Match.Tol) : Val → Val → Bool
  | .num x, .num y => near t x y
  | .obj k xs, .obj j ys => k == j && nearAll t xs ys
  | .vec xs, .vec ys => nearAll t xs ys
  | _, _ => false

/-- Values that can be subtracted. -/
def alike : Val → Val → Prop
  | .num _, .num _ => True
  | .obj k _, .obj j _ => k = j
  | .vec _, .vec _ => True
  | _, _ => False

/-- The difference between the value after and the value before, as a number that may have been stored
in an atom. -/
def Diff (S : Setup) (v1 v0 d : Val) : Prop :=
  compute S.E.A S.E.K true .sub v1 v0 = some d ∨ ∃ x y, v1 = .num x ∧ v0 = .num y ∧ d = .num (S.E.A.sub x y)

/-- Their quotient. -/
def Ratio (S : Setup) (v1 v0 d : Val) : Prop :=
  compute S.E.A S.E.K true .div v1 v0 = some d ∨
    ∃ x y, v1 = .num x ∧ v0 = .num y ∧ S.E.A.isZero y = false ∧ d = .num (S.E.A.div x y)

/-- The arguments of the cause are in the words that follow this one, so many. -/
def arguments (S : Setup) (c : Code) : Option (Nat × Nat) :=
  (c[0]?).bind fun h =>
  (c[if asOpcode h = S.G.cmd then 2 else 3]?).bind fun p =>
  (c[(asIndex p).toNat]?).map fun s => ((asIndex p).toNat, (getAtomCount s).toNat)

/-- Where the arguments are in the pattern made of the cause: as in the cause, or after the template
arguments of an instance of a model. -/
def patternArgs (S : Setup) (c : Code) : Option Nat :=
  (c[0]?).bind fun h =>
  (c[2]?).bind fun p =>
  if asOpcode h = S.G.cmd then some (asIndex p).toNat
  else (c[(asIndex p).toNat]?).map fun s => (asIndex p).toNat + 1 + (getAtomCount s).toNat

/-- The cause has the value as its `i`-th argument, the first being number 1. -/
def Argument (S : Setup) (c : Code) (i : Nat) (a : Val) : Prop :=
  ∃ b n, arguments S c = some (b, n) ∧ 1 ≤ i ∧ i ≤ n ∧ valueIn S.E.K c (b + i) = some a

/-- The law holds of the change from `v0` to `v1`. -/
def Holds (S : Setup) (period : Int) (cause : Code) (v0 v1 : Val) : Law → Prop
  | .addArg k => ∃ i b a d, patternArgs S cause = some b ∧ k = b + i ∧ Argument S cause i a ∧ Diff S v1 v0 d ∧ close S.t a d = true
  | .mulArg k => ∃ i b a d, patternArgs S cause = some b ∧ k = b + i ∧ Argument S cause i a ∧ Ratio S v1 v0 d ∧ close S.t a d = true
  | .speed => ∃ s x y, valueIn S.E.K cause 3 = some (.num s) ∧ v1 = .num x ∧ v0 = .num y ∧
      near S.t (S.E.A.mul s (S.cvt period)) (S.E.A.sub x y) = true
  | .mulConst c => (∃ x y, v1 = .num x ∧ v0 = .num y ∧ S.E.A.isZero y = false ∧ c = S.E.A.div x y) ∨
      ∃ d, compute S.E.A S.E.K true .mul v0 (.num c) = some d ∧ close S.t v1 d = true
  | .addConst c => (∃ x y, v1 = .num x ∧ v0 = .num y ∧ c = S.E.A.sub x y) ∨
      ∃ d, compute S.E.A S.E.K true .add v0 (.num c) = some d ∧ close S.t v1 d = true

/-- The code is a cause as the system makes them: pointers lead to whole structures; there are no
variables and wildcards; arguments are values, not structures in place. -/
structure Made (S : Setup) (c : Code) : Prop where
  ptr : ∀ w ∈ c, getDescriptor w = 0x84 → w = iPointer (BitVec.ofNat 16 (w.toNat % 4096)) ∧
    ∃ h, c[w.toNat % 4096]? = some h ∧ 0xC0 ≤ h.toNat / 16777216 ∧ w.toNat % 4096 + (getAtomCount h).toNat < c.length
  solid : ∀ w ∈ c, getDescriptor w ≠ 0x82 ∧ getDescriptor w ≠ 0x83 ∧ getDescriptor w ≠ 0x86
  args : ∃ b n, arguments S c = some (b, n) ∧ b + n < c.length ∧
    ∀ i, 1 ≤ i → i ≤ n → ∀ w, c[b + i]? = some w → w.toNat / 16777216 < 0xC0

/-- C154: the law of a learnt model holds of the change it is learnt from; a law is found if the
difference or the quotient is an argument of the cause. -/
def C154_full : Prop :=
  ∀ (S : Setup) (period : Int) (c0 c1 cause : Code) (v0 v1 : Val) (h : Word), S.E.K.apart → S.G.cmd ≠ S.G.imdl → S.G.cmd ≠ S.G.mkVal → S.G.imdl ≠ S.G.mkVal →
    cause[0]? = some h → asOpcode h = S.G.cmd ∨ asOpcode h = S.G.imdl ∨ asOpcode h = S.G.mkVal →
    (asOpcode h ≠ S.G.mkVal → Made S cause) → (asOpcode h = S.G.mkVal → (valueIn S.E.K cause 3).isSome) →
    (asOpcode h = S.G.imdl → (patternArgs S cause).isSome) →
    valueIn S.E.K c0 3 = some v0 → valueIn S.E.K c1 3 = some v1 → alike v1 v0 →
    ∃ N, ∀ M ≥ N, ∃ r, find S M period c0 c1 cause = some r ∧ (∀ l, r = some l → Holds S period cause v0 v1 l) ∧
      ((asOpcode h ≠ S.G.mkVal ∧ ∃ op i a d, (op = .sub ∨ op = .div) ∧ Argument S cause i a ∧
          compute S.E.A S.E.K true op v1 v0 = some d ∧ close S.t a d = true) → r ≠ none)

end Verif.Law
