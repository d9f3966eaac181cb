import Verif.Words.Model
/-!
# Binding maps

Transcription of the data part of `BindingMap` (r_exec/binding_map.h:240-362, binding_map.cpp).
A value is an atom, a structure (its own code vector, starting with the structure's header) or an
object (by identity).  A slot of `map_` is empty (a null pointer left by `resize`), an
`UnboundValue`, or a bound value.

Simplification: `ObjectValue::get_code` returns the object's code; only its first word is looked
at by the functions modelled here, and it is an object header (never a time stamp), so it is
represented by `nil`.
-/
namespace Verif.BindMap
open Verif.Atom Verif.Words

/-- `AtomValue`, `StructureValue`, `ObjectValue` (binding_map.h:150-236). -/
inductive Val
  | atom (w : Word)
  | struct (c : Code)
  | obj (id : Nat)
  deriving DecidableEq, Repr

/-- One element of `std::vector<P<Value>> map_` (binding_map.h:255). -/
inductive Slot
  | null
  | unbound (id : BitVec 8)
  | bound (v : Val)
  deriving DecidableEq, Repr

def Slot.isUnbound : Slot → Bool
  | .unbound _ => true
  | _ => false

/-- `BindingMap` (binding_map.h:253-259). -/
structure BMap where
  slots : List Slot := []
  first : BitVec 16 := 0xFFFF
  fwdAfter : Int := -1
  fwdBefore : Int := -1
  unboundValues : BitVec 32 := 0
  deriving DecidableEq, Repr

/-- `BindingMap::BindingMap()` (binding_map.cpp:609-610). -/
def BMap.empty : BMap := {}

/-- What constructing / destroying the value held by a slot does to the counter
(binding_map.cpp:104-112). -/
def weight (s : Slot) : BitVec 32 := if s.isUnbound then 1 else 0

/-- `map_[id] = v` where the new value is created before the old one is released
(`P<Value>::operator=`): counter += weight new, then -= weight old. Undefined out of range. -/
def assign (m : BMap) (i : Nat) (s : Slot) : Option BMap :=
  match m.slots[i]? with
  | none => none
  | some old => some { m with slots := m.slots.set i s,
                              unboundValues := m.unboundValues + weight s - weight old }

/-- `BindingMap::add_unbound_value(uint8 id)` (binding_map.cpp:648-653); `resize` fills with null
pointers. The caller passes an index of up to 12 bits (`a.asIndex()`, binding_map.cpp:989, 1016),
truncated by the parameter type. -/
def addUnbound (m : BMap) (index : BitVec 16) : Option BMap :=
  let id : BitVec 8 := index.setWidth 8
  let m' := if id.toNat ≥ m.slots.length then
      { m with slots := m.slots ++ List.replicate (id.toNat + 1 - m.slots.length) .null } else m
  assign m' id.toNat (.unbound id)

/-- `BindingMap::bind_variable(BoundValue*, uint8 id)` (binding_map.cpp:867-870). -/
def bindVariable (m : BMap) (v : Val) (index : BitVec 16) : Option BMap :=
  let id : BitVec 8 := index.setWidth 8
  assign m id.toNat (.bound v)

/-- `map_[hlp_atom.asIndex()] = new …Value(…)` (binding_map.cpp:1047-1053, 1077-1087) and the
timing slots (765-768, 1096-1097): full-width index. -/
def setSlot (m : BMap) (v : Val) (index : Nat) : Option BMap := assign m index (.bound v)

/-- `map_.push_back(new …Value(…))` at the end of `get_atom_variable`, `get_structure_variable`,
`get_object_variable` (binding_map.cpp:566, 592, 605). -/
def pushBound (m : BMap) (v : Val) : BMap := { m with slots := m.slots ++ [.bound v] }

/-- `BindingMap::clear` (binding_map.cpp:625-629): the values are released. -/
def clear (m : BMap) : BMap :=
  { m with slots := [], fwdAfter := -1, fwdBefore := -1,
           unboundValues := m.unboundValues - (m.slots.map weight).sum }

/-- `BindingMap::operator=` (binding_map.cpp:631-641). The loop counter is a `uint8`: with 256
entries or more it never ends. Copying a null entry is undefined. A structure is copied here as it is; what
`copy_structure` does to it is the subject of `Verif.Values` (C76). -/
def copyFrom (m source : BMap) : Option BMap :=
  if source.slots.length > 255 then none
  else if source.slots.any (· == .null) then none
  else some { clear m with slots := source.slots, first := source.first,
                           fwdAfter := source.fwdAfter, fwdBefore := source.fwdBefore,
                           unboundValues := source.unboundValues }

/-- `BindingMap::is_fully_specified` (binding_map.cpp:935-938). -/
def isFullySpecified (m : BMap) : Bool := m.unboundValues == 0

/-- `Value::get_code` (binding_map.cpp:144-147, 179-182, 268-271, 338-341); outer `none`: call on
a null pointer; inner `none`: the NULL result of an unbound value. -/
def getCode : Slot → Option (Option Code)
  | .null => none
  | .unbound _ => some none
  | .bound (.atom w) => some (some [w])
  | .bound (.struct c) => some (some c)
  | .bound (.obj _) => some (some [nil])

/-- `UnboundValue::match` (binding_map.cpp:124-142) seen from the map: what the word met in the
object makes of the variable. `sub` is the structure an internal pointer leads to, `ref` the object
a reference leads to. -/
def unboundMatch (m : BMap) (index : BitVec 8) (w : Word) (sub : Code) (ref : Nat) : Option BMap :=
  if getDescriptor w = 0x84 then bindVariable m (.struct sub) (index.setWidth 16)
  else if getDescriptor w = 0x85 then bindVariable m (.obj ref) (index.setWidth 16)
  else if getDescriptor w = 0x82 then some m
  else bindVariable m (.atom w) (index.setWidth 16)

end Verif.BindMap
