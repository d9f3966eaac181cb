import Verif.Unify.Model
import Verif.Match.Props
import Verif.Values.Refs
import Verif.Instance.Lemmas
/-!
# C81: what it means for an object to be an instance of a pattern
-/
namespace Verif.Unify
open Verif.Atom Verif.Words Verif.Values
open Verif.Instance (Ev)
open Verif.BindMap (BMap Slot)
open Verif.Match (Obj Heap Opc Tol isWild isVar isIPtr isRPtr Named SameAtom)

/-- Neither a wildcard, a variable nor a pointer. -/
def Leaf (w : Word) : Prop := ¬ isWild w ∧ ¬ isVar w ∧ ¬ isIPtr w ∧ ¬ isRPtr w

instance (w : Word) : Decidable (Leaf w) := by unfold Leaf; infer_instance

/-- A place of an object: a word of it, a structure in it, or the object as a whole. -/
inductive Place
  | word (o : Obj) (w : Word)
  | str (o : Obj) (i : Nat)
  | obj (a : Nat)

/-- What is at the place is finite and inside the codes it is made of; words that are not pointers satisfy `V`,
structures satisfy `H`; data words do not look like pointers, variables or wildcards. -/
inductive Ok (h : Heap) (oc : Opc) (V : Word → Prop) (H : Obj → Nat → Prop) : Place → Prop
  | word {o w} : ¬ isIPtr w → ¬ isRPtr w → V w → Ok h oc V H (.word o w)
  | sub {o w} : isIPtr w → Ok h oc V H (.str o (asIndex w).toNat) → Ok h oc V H (.word o w)
  | ref {o w a} : isRPtr w → o.refs[(asIndex w).toNat]? = some a → Ok h oc V H (.obj a) → Ok h oc V H (.word o w)
  | data {o i w} : o.code[i]? = some w → raw w = true → i + count w < o.code.length →
      (getDescriptor w = 0xC7 → 2 ≤ count w) →
      (∀ k a, 1 ≤ k → k ≤ count w → o.code[i + k]? = some a → Leaf a) → Ok h oc V H (.str o i)
  | str {o i w} : o.code[i]? = some w → raw w = false → ¬ isIPtr w → i + count w < o.code.length → H o i →
      (∀ k a, 1 ≤ k → k ≤ count w → o.code[i + k]? = some a → Ok h oc V H (.word o a)) → Ok h oc V H (.str o i)
  | named {o a w} : h a = some o → o.code[0]? = some w → Named oc w → Ok h oc V H (.obj a)
  | obj {o a w} : h a = some o → o.code[0]? = some w → ¬ Named oc w → 1 ≤ count w → count w < o.code.length →
      (∀ k a, 1 ≤ k → k ≤ count w → o.code[k]? = some a → Ok h oc V H (.word o a)) → Ok h oc V H (.obj a)

/-- No variables, no wildcards. -/
def Ground (h : Heap) (oc : Opc) : Place → Prop := Ok h oc Leaf fun _ _ => True

/-- A time interval `(ti :v :w)` between two variables. -/
def VarTi (ti : Word) (o : Obj) (i : Nat) : Prop :=
  o.code[i]? = some ti ∧ ∀ k, 1 ≤ k → k ≤ 2 → ∃ w, o.code[i + k]? = some w ∧ isVar w

/-- Variables below `n`; no time intervals between variables (they are matched as intervals). -/
def Pattern (h : Heap) (oc : Opc) (ti : Word) (n : Nat) : Place → Prop :=
  Ok h oc (fun w => isVar w → (asIndex w).toNat < n) fun o i => ¬ VarTi ti o i

/-- A place of an object and a place of a pattern. -/
inductive Pair
  | word (o : Obj) (w : Word) (p : Obj) (v : Word)
  | str (o : Obj) (i : Nat) (p : Obj) (j : Nat)
  | obj (a b : Nat)

/-- The object at the first place, with tolerances, is the pattern at the second one with the values of `m` for
its variables. `D` compares the words of texts and durations. -/
inductive Fits (h : Heap) (oc : Opc) (t : Tol) (D : Word → Word → Prop) (m : BMap) : Pair → Prop
  | wild {o w p v} : isWild v → Fits h oc t D m (.word o w p v)
  | varAtom {o w p v x} : isVar v → m.slots[(asIndex v).toNat]? = some (.bound (.atom x)) → Leaf w →
      SameAtom t w x → Fits h oc t D m (.word o w p v)
  | varStr {o w p v c} : isVar v → m.slots[(asIndex v).toNat]? = some (.bound (.struct c)) → isIPtr w →
      Fits h oc t D m (.str o (asIndex w).toNat ⟨c, [], []⟩ 0) → Fits h oc t D m (.word o w p v)
  | varObj {o w p v a b} : isVar v → m.slots[(asIndex v).toNat]? = some (.bound (.obj b)) → isRPtr w →
      o.refs[(asIndex w).toNat]? = some a → Fits h oc t D m (.obj a b) → Fits h oc t D m (.word o w p v)
  | atom {o w p v} : Leaf w → Leaf v → SameAtom t w v → Fits h oc t D m (.word o w p v)
  | sub {o w p v} : isIPtr w → isIPtr v → Fits h oc t D m (.str o (asIndex w).toNat p (asIndex v).toNat) →
      Fits h oc t D m (.word o w p v)
  | ref {o w p v a b} : isRPtr w → isRPtr v → o.refs[(asIndex w).toNat]? = some a →
      p.refs[(asIndex v).toNat]? = some b → Fits h oc t D m (.obj a b) → Fits h oc t D m (.word o w p v)
  | time {o i p j w a b} : o.code[i]? = some w → p.code[j]? = some w → getDescriptor w = 0xC7 →
      getInt64 o.code (i + 1) = some a → getInt64 p.code (j + 1) = some b →
      ((a.toInt - b.toInt).natAbs : Int) < t.time → Fits h oc t D m (.str o i p j)
  | data {o i p j w} : o.code[i]? = some w → p.code[j]? = some w → raw w = true → getDescriptor w ≠ 0xC7 →
      (∀ k, 1 ≤ k → k ≤ count w → ∃ a b, o.code[i + k]? = some a ∧ p.code[j + k]? = some b ∧ D a b) →
      Fits h oc t D m (.str o i p j)
  | str {o i p j w} : o.code[i]? = some w → p.code[j]? = some w → raw w = false →
      (∀ k, 1 ≤ k → k ≤ count w → ∃ a b, o.code[i + k]? = some a ∧ p.code[j + k]? = some b) →
      (∀ k a b, 1 ≤ k → k ≤ count w → o.code[i + k]? = some a → p.code[j + k]? = some b →
        Fits h oc t D m (.word o a p b)) → Fits h oc t D m (.str o i p j)
  | named {o a w} : h a = some o → o.code[0]? = some w → Named oc w → Fits h oc t D m (.obj a a)
  | obj {o p a b w} : h a = some o → h b = some p → o.code[0]? = some w → p.code[0]? = some w → ¬ Named oc w →
      (∀ k, 1 ≤ k → k ≤ count w → ∃ a b, o.code[k]? = some a ∧ p.code[k]? = some b) →
      (∀ k a b, 1 ≤ k → k ≤ count w → o.code[k]? = some a → p.code[k]? = some b →
        Fits h oc t D m (.word o a p b)) → Fits h oc t D m (.obj a b)

/-- The word of the object is exactly the value: the same atom, a structure with the same content, the same
object. -/
def IsValue (o : Obj) (w : Word) : BindMap.Val → Prop
  | .atom x => Leaf w ∧ w = x
  | .struct c => isIPtr w ∧ ∀ q, look c 0 q = look o.code (asIndex w).toNat q
  | .obj r => isRPtr w ∧ o.refs[(asIndex w).toNat]? = some r

/-- The object at the first place is exactly the pattern at the second one with the values of `m` for its
variables. -/
inductive Is (h : Heap) (oc : Opc) (m : BMap) : Pair → Prop
  | wild {o w p v} : isWild v → Is h oc m (.word o w p v)
  | var {o w p v x} : isVar v → m.slots[(asIndex v).toNat]? = some (.bound x) → IsValue o w x →
      Is h oc m (.word o w p v)
  | atom {o w p} : Leaf w → Is h oc m (.word o w p w)
  | sub {o w p v} : isIPtr w → isIPtr v → Is h oc m (.str o (asIndex w).toNat p (asIndex v).toNat) →
      Is h oc m (.word o w p v)
  | ref {o w p v a b} : isRPtr w → isRPtr v → o.refs[(asIndex w).toNat]? = some a →
      p.refs[(asIndex v).toNat]? = some b → Is h oc m (.obj a b) → Is h oc m (.word o w p v)
  | data {o i p j w} : o.code[i]? = some w → p.code[j]? = some w → raw w = true →
      (∀ k, 1 ≤ k → k ≤ count w → o.code[i + k]? = p.code[j + k]?) → Is h oc m (.str o i p j)
  | str {o i p j w} : o.code[i]? = some w → p.code[j]? = some w → raw w = false →
      (∀ k a b, 1 ≤ k → k ≤ count w → o.code[i + k]? = some a → p.code[j + k]? = some b →
        Is h oc m (.word o a p b)) → Is h oc m (.str o i p j)
  | named {o a w} : h a = some o → o.code[0]? = some w → Named oc w → Is h oc m (.obj a a)
  | obj {o p a b w} : h a = some o → h b = some p → o.code[0]? = some w → p.code[0]? = some w → ¬ Named oc w →
      (∀ k a b, 1 ≤ k → k ≤ count w → o.code[k]? = some a → p.code[k]? = some b →
        Is h oc m (.word o a p b)) → Is h oc m (.obj a b)

/-- Entry `v` of a map: unbound and knowing its number, or bound to a ground value, a structure without
references. -/
def GoodSlot (h : Heap) (oc : Opc) (v : Nat) : Slot → Prop
  | .null => False
  | .unbound id => id.toNat = v
  | .bound (.atom w) => Leaf w
  | .bound (.struct c) => Ground h oc (.str ⟨c, [], []⟩ 0) ∧ NoRefs c 0
  | .bound (.obj r) => Ground h oc (.obj r)

/-- A map in use: its entries are good. -/
def Good (h : Heap) (oc : Opc) (m : BMap) : Prop :=
  ∀ (v : Nat) s, m.slots[v]? = some s → GoodSlot h oc v s

/-- `m'` has the bindings of `m`. -/
structure Extends (m m' : BMap) : Prop where
  len : m'.slots.length = m.slots.length
  bound : ∀ (v : Nat) x, m.slots[v]? = some (.bound x) → m'.slots[v]? = some (.bound x)

/-- The same value: structures by their content. -/
def Alike : BindMap.Val → BindMap.Val → Prop
  | .atom a, .atom b => a = b
  | .obj a, .obj b => a = b
  | .struct a, .struct b => ∀ q, look a 0 q = look b 0 q
  | _, _ => False

/-- What `m` has bound, `m'` has bound to the same. -/
def Within (m m' : BMap) : Prop :=
  ∀ (v : Nat) x, m.slots[v]? = some (.bound x) → ∃ y, m'.slots[v]? = some (.bound y) ∧ Alike x y

/-- The place in the pattern, the place in the object. -/
def Pair.pat : Pair → Place
  | .word _ _ p v => .word p v
  | .str _ _ p j => .str p j
  | .obj _ b => .obj b

def Pair.place : Pair → Place
  | .word o w _ _ => .word o w
  | .str o i _ _ => .str o i
  | .obj a _ => .obj a

/-- Walking object and pattern in step from the first pair leads to the second. -/
inductive Inside (h : Heap) (oc : Opc) : Pair → Pair → Prop
  | here {P} : Inside h oc P P
  | sub {o w p v Q} : isIPtr w → isIPtr v → Inside h oc (.str o (asIndex w).toNat p (asIndex v).toNat) Q →
      Inside h oc (.word o w p v) Q
  | ref {o w p v a b Q} : isRPtr w → isRPtr v → o.refs[(asIndex w).toNat]? = some a →
      p.refs[(asIndex v).toNat]? = some b → Inside h oc (.obj a b) Q → Inside h oc (.word o w p v) Q
  | str {o i p j w k a b Q} : o.code[i]? = some w → p.code[j]? = some w → raw w = false → 1 ≤ k → k ≤ count w →
      o.code[i + k]? = some a → p.code[j + k]? = some b → Inside h oc (.word o a p b) Q →
      Inside h oc (.str o i p j) Q
  | obj {o p x y w k a b Q} : h x = some o → h y = some p → o.code[0]? = some w → p.code[0]? = some w →
      ¬ Named oc w → 1 ≤ k → k ≤ count w → o.code[k]? = some a → p.code[k]? = some b →
      Inside h oc (.word o a p b) Q → Inside h oc (.obj x y) Q

/-- What the variables of the pattern meet: the variables in `τ` meet references, the others do not; a structure
has no references in it, and its copy takes at most 4096 words (see C76, C80). -/
def Safe (h : Heap) (oc : Opc) (τ : Nat → Prop) (P : Pair) : Prop :=
  ∀ o w p v, Inside h oc P (.word o w p v) → isVar v →
    (isRPtr w ↔ τ (asIndex v).toNat) ∧
    (isIPtr w → NoRefs o.code (asIndex w).toNat ∧
      ∀ f c, structureValue f o.code (asIndex w).toNat = some c → c.length ≤ 4096)

/-- Only variables in `τ` are bound to objects. -/
def Typed (τ : Nat → Prop) (m : BMap) : Prop := ∀ (v : Nat) r, m.slots[v]? = some (.bound (.obj r)) → τ v

end Verif.Unify
