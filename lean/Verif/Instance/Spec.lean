import Verif.Instance.Model
import Verif.Values.Refs
/-! What it means for an instance to keep the bindings of a model or state. -/
namespace Verif.Instance
open Verif.Atom Verif.Words Verif.BindMap Verif.Values

/-- Two entries of a map hold the same thing: the same variable, atom or object, structures with the same
content. -/
def Same : Slot → Slot → Prop
  | .unbound a, .unbound b => a = b
  | .bound (.atom a), .bound (.atom b) => a = b
  | .bound (.obj a), .bound (.obj b) => a = b
  | .bound (.struct a), .bound (.struct b) => ∀ p, look b 0 p = look a 0 p
  | _, _ => False

/-- What variables are bound to: a structure is finite, its plain data has no word that looks like a pointer
(see C76) and it holds no references (see C80); an atom is neither a pointer, nor a variable, nor a wildcard. -/
def Storable : Slot → Prop
  | .null => False
  | .unbound _ => True
  | .bound (.atom w) => getDescriptor w ≠ 0x82 ∧ getDescriptor w ≠ 0x83 ∧ getDescriptor w ≠ 0x84 ∧
      getDescriptor w ≠ 0x85 ∧ getDescriptor w ≠ 0x86
  | .bound (.obj _) => True
  | .bound (.struct c) => Plain c 0 ∧ Whole c 0 ∧ NoRefs c 0

/-- Template arguments: a finite structure with variables below `n`. -/
inductive Args (n : Nat) (hlp : Code) : Nat → Prop
  | mk {i : Nat} {h : Word} (hh : hlp[i]? = some h) (hp : getDescriptor h ≠ 0x84)
      (hall : i + count h < hlp.length)
      (hraw : raw h = true → ∀ k w, 1 ≤ k → k ≤ count h → hlp[i + k]? = some w →
        getDescriptor w ≠ 0x84 ∧ getDescriptor w ≠ 0x86)
      (hvar : ∀ k w, 1 ≤ k → k ≤ count h → hlp[i + k]? = some w → getDescriptor w = 0x86 →
        (asIndex w).toNat < n)
      (hsub : ∀ k w, 1 ≤ k → k ≤ count h → hlp[i + k]? = some w → getDescriptor w = 0x84 →
        Args n hlp (asIndex w).toNat) : Args n hlp i

/-- Variable `v` occurs in the template arguments at `i`. -/
inductive Occurs (hlp : Code) (v : Nat) : Nat → Prop
  | here {i k : Nat} {h w : Word} (hh : hlp[i]? = some h) (h1 : 1 ≤ k) (h2 : k ≤ count h)
      (hw : hlp[i + k]? = some w) (hd : getDescriptor w = 0x86) (hv : (asIndex w).toNat = v) : Occurs hlp v i
  | sub {i k : Nat} {h w : Word} (hh : hlp[i]? = some h) (h1 : 1 ≤ k) (h2 : k ≤ count h)
      (hw : hlp[i + k]? = some w) (hd : getDescriptor w = 0x84) (hs : Occurs hlp v (asIndex w).toNat) :
      Occurs hlp v i

/-- All variables of the template arguments are bound, and none is in a time interval (`ti`). -/
inductive AllBound (ti : Word) (m : BMap) (hlp : Code) : Nat → Prop
  | mk {i : Nat} {h : Word} (hh : hlp[i]? = some h)
      (hvar : ∀ k w, 1 ≤ k → k ≤ count h → hlp[i + k]? = some w → getDescriptor w = 0x86 →
        h ≠ ti ∧ ∃ v, m.slots[(asIndex w).toNat]? = some (.bound v))
      (hsub : ∀ k w, 1 ≤ k → k ≤ count h → hlp[i + k]? = some w → getDescriptor w = 0x84 →
        AllBound ti m hlp (asIndex w).toNat) : AllBound ti m hlp i

/-- `m` is a map of the model or state, `m0` the initial one: the variables of the first timings are exposed
and bound, what is bound can be copied. -/
structure Ready (m m0 : BMap) : Prop where
  len : m0.slots.length = m.slots.length
  small : m.slots.length < 65536
  first : m0.first = m.first
  after : m0.fwdAfter = m.fwdAfter
  before : m0.fwdBefore = m.fwdBefore
  still : ∀ (v : Nat) u, m.slots[v]? = some (Slot.unbound u) → m0.slots[v]? = some (Slot.unbound u)
  good : ∀ (v : Nat) s, m.slots[v]? = some s → Storable s
  timings : ∃ a b ca cb, m.fwdAfter = ((a : Nat) : Int) ∧ m.fwdBefore = ((b : Nat) : Int) ∧ a ≠ b ∧
    m.first.toNat ≤ a ∧ m.first.toNat ≤ b ∧
    m.slots[a]? = some (.bound (.struct ca)) ∧ m.slots[b]? = some (.bound (.struct cb))

end Verif.Instance
