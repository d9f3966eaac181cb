import Verif.Unify.Model
/-!
# Making a pattern from an object

`BindingMap::abstract_object`, `abstract_fact`, `abstract_member` and the search for variables
(r_exec/binding_map.cpp:196-205, 287-310, 361-364, 410-477, 488-528, 555-606): a copy of an object in which
variables stand for its values, the map remembering them. Objects are numbered by their place in the heap, new
ones are added at the end when complete. Indices are naturals. `none` is undefined behaviour (a read outside a
code, a list of references or the map, a null entry) or fuel exhausted.
-/
namespace Verif.Abstract
open Verif.Atom Verif.Words Verif.Values
open Verif.BindMap (BMap Slot)
open Verif.Match (Obj Opc Tol)

/-- The opcodes the functions test; `usr` is `hasUserDefinedOperators` (r_exec/init.cpp:662-665). -/
structure Kinds where
  oc : Opc
  cmd : BitVec 16
  usr : BitVec 16 → Bool

/-- `Atom::VLPointer(i)`. -/
def vl (i : Nat) : Word := vlPointer (BitVec.ofNat 16 i)
/-- `Atom::RPointer(i)`. -/
def rp (i : Nat) : Word := rPointer (BitVec.ofNat 16 i)

/-- An object under construction: the objects there are, the map, the code and references so far, and
`extent_index`. -/
structure Part where
  heap : List Obj
  map : BMap
  obj : Obj
  ext : Nat

/-- `abstracted_object->code(i) = w`. -/
def Part.put (P : Part) (i : Nat) (w : Word) : Part := { P with obj := { P.obj with code := Words.put P.obj.code i w } }

/-- `code(i) = Atom::RPointer(references_size()); add_reference(r)` (r_exec/binding_map.cpp:496-497, 502-503). -/
def Part.addRef (P : Part) (i r : Nat) : Part :=
  { P with
    obj := { P.obj with code := Words.put P.obj.code i (rp P.obj.refs.length), refs := P.obj.refs ++ [r] } }

/-! ## Looking for a variable -/

/-- `Value::contains(Atom)` (binding_map.h:118) and `AtomValue::contains` (r_exec/binding_map.cpp:196-205). -/
def containsAtom (t : Tol) (a : Word) : Slot → Option Bool
  | .null => none
  | .bound (.atom w) => some (Match.matchAtom t w a)
  | _ => some false

/-- The loop of `StructureValue::contains` (r_exec/binding_map.cpp:293-306): `k` words remain, the next one is
number `i`; `s` is the word of `src` the structure starts at. -/
def sameWords (t : Tol) (c src : Code) (s : Nat) : Nat → Nat → Option Bool
  | 0, _ => some true
  | k + 1, i =>
    match c[i]?, src[s + i]? with
    | some a, some b => if Match.matchAtom t a b then sameWords t c src s k (i + 1) else some false
    | _, _ => none

/-- `Value::contains(const Atom*)` (binding_map.h:119) and `StructureValue::contains`
(r_exec/binding_map.cpp:287-310) for the structure at `s` of `src`. -/
def containsStr (t : Tol) (src : Code) (s : Nat) : Slot → Option Bool
  | .null => none
  | .bound (.struct c) =>
    match c[0]?, src[s]? with
    | some a, some b =>
      if a ≠ b then some false
      else if getDescriptor a = 0xC7 then
        match getInt64 c 1, getInt64 src (s + 1) with
        | some x, some y => some (Match.synchronous t x y)
        | _, _ => none
      else sameWords t c src s (c.length - 1) 1
    | _, _ => none
  | _ => some false

/-- `Value::contains(const Code*)` (binding_map.h:120) and `ObjectValue::contains`
(r_exec/binding_map.cpp:361-364). -/
def containsObj (r : Nat) : Slot → Option Bool
  | .null => none
  | .bound (.obj x) => some (x == r)
  | _ => some false

/-- The loop of `get_atom_variable` and `get_object_variable` (r_exec/binding_map.cpp:557-561, 597-601): the
entries `l` from number `i` on. -/
def firstVar (g : Slot → Option Bool) : List Slot → Nat → Option (Option Nat)
  | [], _ => some none
  | s :: l, i => (g s).bind fun b => if b then some (some i) else firstVar g l (i + 1)

/-- The loop of `get_structure_variable` (r_exec/binding_map.cpp:575-587), from entry `i` on, around to `first`.
At most `k` entries. -/
def roundVar (g : Slot → Option Bool) (l : List Slot) (first : Nat) : Nat → Nat → Option (Option Nat)
  | 0, _ => none
  | k + 1, i =>
    match l[i]? with
    | none => none
    | some s =>
      (g s).bind fun b =>
        if b then some (some i)
        else
          let j := if i + 1 ≥ l.length then 0 else i + 1
          if j = first then some none else roundVar g l first k j

/-- The value is new: `map_.push_back(v); return Atom::VLPointer(size)`; or entry `i` has it. -/
def varOf (m : BMap) (v : BindMap.Val) : Option Nat → BMap × Word
  | some i => (m, vl i)
  | none => (BindMap.pushBound m v, vl m.slots.length)

/-- r_exec/binding_map.cpp:555-567 `get_atom_variable(a)`. -/
def atomVariable (t : Tol) (m : BMap) (a : Word) : Option (BMap × Word) :=
  (firstVar (containsAtom t a) m.slots 0).map (varOf m (.atom a))

/-- r_exec/binding_map.cpp:595-606 `get_object_variable(object)`. -/
def objectVariable (m : BMap) (r : Nat) : Option (BMap × Word) :=
  (firstVar (containsObj r) m.slots 0).map (varOf m (.obj r))

/-- r_exec/binding_map.cpp:569-593 `get_structure_variable(object, index, first_search_index)`. `f` bounds the
depth of the copy. -/
def structVariable (t : Tol) (f : Nat) (m : BMap) (src : Code) (s : Nat) (first : Int) : Option (BMap × Word) :=
  let found :=
    if first ≥ 0 ∧ m.slots.length > 0 then
      let first := if first.toNat > m.slots.length then m.slots.length - 1 else first.toNat
      roundVar (containsStr t src s) m.slots first m.slots.length first
    else some none
  found.bind fun r =>
    match r with
    | some i => some (m, vl i)
    | none => (structureValue f src s).map fun c => varOf m (.struct c) none

/-! ## The copy -/

/-- The loop over the members of a structure (r_exec/binding_map.cpp:519-520): `k` remain. -/
def absMembers (rec : Part → Nat → Nat → Option Part) : Nat → Nat → Nat → Part → Option Part
  | 0, _, _, P => some P
  | k + 1, i, write, P => (rec P i write).bind fun P => absMembers rec k (i + 1) (write + 1) P

/-- A row of calls `abstract_member(object, i, abstracted_object, i, extent_index, first)`. -/
def absRow (rec : Part → Nat → Nat → Int → Option Part) : List (Nat × Int) → Part → Option Part
  | [], P => some P
  | (i, first) :: l, P => (rec P i i first).bind (absRow rec l)

/-- The object is complete. -/
def Part.done (P : Part) : List Obj × BMap × Nat := (P.heap ++ [P.obj], P.map, P.heap.length)

/-- A new object with the first word `w` (`new Fact()`, factory.cpp:507-510; `build_object`, mem.tpl.cpp:154-191),
its structures to be written from `ext` on. -/
def fresh (heap : List Obj) (m : BMap) (w : Word) (ext : Nat) : Part := ⟨heap, m, ⟨[w], [], []⟩, ext⟩

/-- r_exec/binding_map.cpp:424-434, the end of `abstract_fact`. -/
def endFact (P : Part) : Part :=
  let P := (P.put 4 (wildcard 0)).put 5 (wildcard 0)
  if P.map.fwdAfter = -1 then
    { P with map := { P.map with
        fwdAfter := ix ((P.obj.code[2]?).getD 0)
        fwdBefore := ix ((P.obj.code[3]?).getD 0) } }
  else P

/-- r_exec/binding_map.cpp:410-437 `abstract_fact(fact, original, force_sync, timing_vars_first_search_index)`;
`w` is the first word of the new fact. -/
def absFact (rec : Part → Nat → Nat → Int → Option Part) (heap : List Obj) (m : BMap) (w : Word) (force : Bool)
    (first : Int) : Option Part :=
  let m := if m.fwdAfter = -1 then { m with first := BitVec.ofNat 16 m.slots.length } else m
  (absRow rec [(1, first)] (fresh heap m w 6)).bind fun P =>
    if P.map.fwdAfter ≠ -1 ∧ force then
      some (endFact ((P.put 2 (vl P.map.fwdAfter.toNat)).put 3 (vl P.map.fwdBefore.toNat)))
    else (absRow rec [(2, first), (3, first)] P).map endFact

mutual
/-- r_exec/binding_map.cpp:439-477 `abstract_object(object, force_sync, timing_vars_first_search_index)`: the
heap, the map, the pattern. -/
def absObject (K : Kinds) (t : Tol) : (fuel : Nat) → List Obj → BMap → Nat → Bool → Int → Option (List Obj × BMap × Nat)
  | 0, _, _, _, _, _ => none
  | f + 1, heap, m, a, force, first =>
    match heap[a]? with
    | none => none
    | some o =>
      match o.code[0]? with
      | none => none
      | some w =>
        if asOpcode w = K.oc.fact then
          (absFact (absMember K t f o) heap m (object K.oc.fact 5) force first).map Part.done
        else if asOpcode w = K.oc.antiFact then
          (absFact (absMember K t f o) heap m (object K.oc.antiFact 5) force first).map Part.done
        else if asOpcode w = K.cmd then
          match o.code[1]? with
          | none => none
          | some d =>
            (absRow (absMember K t f o) [(2, 0)] ((fresh heap m w 4).put 1 d)).map fun P =>
              (P.put 3 (wildcard 0)).done
        else if asOpcode w = K.oc.mkVal then
          (absRow (absMember K t f o) [(1, 0), (2, 0), (3, 0)] (fresh heap m w 5)).map fun P =>
            (P.put 4 (wildcard 0)).done
        else if asOpcode w = K.oc.imdl ∨ asOpcode w = K.oc.icst then
          (absRow (absMember K t f o) [(1, 0), (2, 0), (3, -1)] (fresh heap m w 6)).map fun P =>
            ((P.put 4 (wildcard 0)).put 5 (wildcard 0)).done
        else some (heap, m, a)
termination_by structural fuel => fuel

/-- r_exec/binding_map.cpp:488-528 `abstract_member(object, index, abstracted_object, write_index, extent_index,
first_search_index)`. -/
def absMember (K : Kinds) (t : Tol) : (fuel : Nat) → Obj → Part → Nat → Nat → Int → Option Part
  | 0, _, _, _, _, _ => none
  | f + 1, o, P, i, write, first =>
    match o.code[i]? with
    | none => none
    | some a =>
      if getDescriptor a = 0x85 then
        match o.refs[ix a]? with
        | none => none
        | some r =>
          match (P.heap[r]?).bind fun x => x.code[0]? with
          | none => none
          | some w =>
            if asOpcode w = K.oc.ont then some (P.addRef write r)
            else if asOpcode w = K.oc.ent then
              (objectVariable P.map r).map fun v => { P with map := v.1 }.put write v.2
            else
              (absObject K t f P.heap P.map r false first).map fun v =>
                { P with heap := v.1, map := v.2.1 }.addRef write v.2.2
      else if getDescriptor a = 0x84 then
        match o.code[ix a]? with
        | none => none
        | some w =>
          if K.usr (asOpcode w) then
            (structVariable t f P.map o.code (ix a) 0).map fun v => { P with map := v.1 }.put write v.2
          else if getDescriptor w = 0xC1 ∨ getDescriptor w = 0xC3 then
            absMembers (fun P i write => absMember K t f o P i write first) (count w) (ix a + 1) (P.ext + 1)
              { (P.put write (ip P.ext)).put P.ext w with ext := P.ext + (count w + 1) }
          else
            (structVariable t f P.map o.code (ix a) first).map fun v => { P with map := v.1 }.put write v.2
      else (atomVariable t P.map a).map fun v => { P with map := v.1 }.put write v.2
termination_by structural fuel => fuel
end

end Verif.Abstract
