import Verif.Abstract.Model
import Verif.Unify.Spec
/-!
# C82: what it means for a pattern to be the abstraction of an object
-/
namespace Verif.Abstract
open Verif.Atom Verif.Words Verif.Values
open Verif.BindMap (BMap Slot)
open Verif.Match (Obj Heap Opc Tol isWild isVar isIPtr isRPtr Named SameAtom)
open Verif.Unify (Leaf Place Ok Ground Pair Fits)

/-- A heap given by the list of its objects. -/
def heapOf (H : List Obj) : Heap := fun a => H[a]?

/-- Sets and objects inside objects are abstracted member by member, unless they are of a class with operators
of its own. -/
def Apart (K : Kinds) (w : Word) : Prop :=
  K.usr (asOpcode w) = false ∧ (getDescriptor w = 0xC1 ∨ getDescriptor w = 0xC3)

/-- What becomes of a member of an object: it is abstracted, kept, or left open. -/
inductive Role
  | lift | keep | free
  deriving DecidableEq, Repr

/-- Facts, commands, values of attributes, instances of models and states are abstracted; other objects are
not. -/
def roles (K : Kinds) (w : Word) : Option (List Role) :=
  if asOpcode w = K.oc.fact ∨ asOpcode w = K.oc.antiFact then some [.lift, .lift, .lift, .free, .free]
  else if asOpcode w = K.cmd then some [.keep, .lift, .free]
  else if asOpcode w = K.oc.mkVal then some [.lift, .lift, .lift, .free]
  else if asOpcode w = K.oc.imdl ∨ asOpcode w = K.oc.icst then some [.lift, .lift, .lift, .free, .free]
  else none

/-- The object at the first place is abstracted to what is at the second one: entities and values become
variables that `m` binds to them (within the tolerances; `D` compares the words of texts and durations),
ontologies are kept, structures and references are abstracted in turn. -/
inductive Abs (h : Heap) (K : Kinds) (t : Tol) (D : Word → Word → Prop) (m : BMap) : Pair → Prop
  | atom {o w p v x} : Leaf w → isVar v → m.slots[(asIndex v).toNat]? = some (.bound (.atom x)) →
      SameAtom t w x → Abs h K t D m (.word o w p v)
  | value {o w p v c x} : isIPtr w → o.code[(asIndex w).toNat]? = some x → ¬ Apart K x → isVar v →
      m.slots[(asIndex v).toNat]? = some (.bound (.struct c)) →
      Fits h K.oc t D m (.str o (asIndex w).toNat ⟨c, [], []⟩ 0) → Abs h K t D m (.word o w p v)
  | sub {o w p v x} : isIPtr w → o.code[(asIndex w).toNat]? = some x → Apart K x → isIPtr v →
      Abs h K t D m (.str o (asIndex w).toNat p (asIndex v).toNat) → Abs h K t D m (.word o w p v)
  | ont {o w p v a x d} : isRPtr w → o.refs[(asIndex w).toNat]? = some a → h a = some x → x.code[0]? = some d →
      asOpcode d = K.oc.ont → isRPtr v → p.refs[(asIndex v).toNat]? = some a → Abs h K t D m (.word o w p v)
  | ent {o w p v a x d} : isRPtr w → o.refs[(asIndex w).toNat]? = some a → h a = some x → x.code[0]? = some d →
      asOpcode d = K.oc.ent → isVar v → m.slots[(asIndex v).toNat]? = some (.bound (.obj a)) →
      Abs h K t D m (.word o w p v)
  | ref {o w p v a b} : isRPtr w → o.refs[(asIndex w).toNat]? = some a → isRPtr v →
      p.refs[(asIndex v).toNat]? = some b → Abs h K t D m (.obj a b) → Abs h K t D m (.word o w p v)
  | str {o i p j w} : o.code[i]? = some w → p.code[j]? = some w → raw w = false →
      (∀ k, 1 ≤ k → k ≤ count w → ∃ a b, o.code[i + k]? = some a ∧ p.code[j + k]? = some b) →
      (∀ k a b, 1 ≤ k → k ≤ count w → o.code[i + k]? = some a → p.code[j + k]? = some b →
        Abs h K t D m (.word o a p b)) → Abs h K t D m (.str o i p j)
  | kept {o a w} : h a = some o → o.code[0]? = some w → roles K w = none → Abs h K t D m (.obj a a)
  | made {o p a b w rs} : h a = some o → h b = some p → o.code[0]? = some w → p.code[0]? = some w →
      roles K w = some rs →
      (∀ k r, rs[k]? = some r → ∃ x y, o.code[k + 1]? = some x ∧ p.code[k + 1]? = some y ∧
        (r = .keep → y = x) ∧ (r = .free → isWild y)) →
      (∀ k x y, rs[k]? = some .lift → o.code[k + 1]? = some x → p.code[k + 1]? = some y →
        Abs h K t D m (.word o x p y)) → Abs h K t D m (.obj a b)

/-- The classes of the objects abstracted have the members the functions know, a member kept is an atom;
entities, ontologies, models and states are none of them. -/
structure Shaped (h : Heap) (K : Kinds) : Prop where
  count : ∀ a o w rs, h a = some o → o.code[0]? = some w → roles K w = some rs → count w = rs.length
  fact : ∀ a o w, h a = some o → o.code[0]? = some w → asOpcode w = K.oc.fact ∨ asOpcode w = K.oc.antiFact →
    w = object (asOpcode w) 5
  keep : ∀ a o w rs k x, h a = some o → o.code[0]? = some w → roles K w = some rs → rs[k]? = some .keep →
    o.code[k + 1]? = some x → Leaf x
  named : ∀ w, Named K.oc w → roles K w = none

/-- The members of the structure are no pointers, variables or wildcards. -/
def Flat (o : Obj) (i : Nat) : Prop :=
  ∀ w k a, o.code[i]? = some w → 1 ≤ k → k ≤ count w → o.code[i + k]? = some a → Leaf a

/-- No variables, no wildcards; structures not abstracted member by member have no pointers in them. -/
def Source (h : Heap) (K : Kinds) : Place → Prop :=
  Ok h K.oc Leaf fun o i => ∀ w, o.code[i]? = some w → ¬ Apart K w → Flat o i

/-- The code of a structure without pointers is its own words. -/
def Tight (m : BMap) : Prop :=
  ∀ (v : Nat) c w, m.slots[v]? = some (.bound (.struct c)) → c[0]? = some w →
    (∀ k a, 1 ≤ k → k ≤ count w → c[k]? = some a → Leaf a) → c.length = count w + 1

/-- Every entity has its variable, every atom as well. -/
structure Distinct (t : Tol) (m : BMap) : Prop where
  obj : ∀ (i j : Nat) r, m.slots[i]? = some (.bound (.obj r)) → m.slots[j]? = some (.bound (.obj r)) → i = j
  atom : ∀ (i j : Nat) x y, m.slots[i]? = some (.bound (.atom x)) → m.slots[j]? = some (.bound (.atom y)) →
    SameAtom t x y → i = j

/-- The objects from number `n` on have at most 4096 words and references: pointers have 12 bits. -/
def Small (n : Nat) (H : List Obj) : Prop :=
  ∀ (a : Nat) o, n ≤ a → H[a]? = some o → o.code.length ≤ 4096 ∧ o.refs.length ≤ 4096

/-- The search for structures starts at an entry there is, or at the first, or there is no search. -/
def Start (m : BMap) (first : Int) : Prop := first ≤ 0 ∨ first.toNat < m.slots.length

end Verif.Abstract
