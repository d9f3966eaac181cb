import Verif.BindMap.Model
/-!
# Copying structures

`StructureValue` (r_exec/binding_map.cpp:214-259, binding_map.h:180-205) keeps a structure met in the code of
an object in a code of its own; `valuate` writes it back after the code of another object. Both are
`copy_structure`. Indices are naturals; pointers keep their low twelve bits (`Atom::IPointer`). `none` is a
read outside the source or recursion without end.
-/
namespace Verif.Values
open Verif.Atom Verif.Words

/-- `a.getDescriptor() == Atom::I_PTR`. -/
def isPtr (w : Word) : Bool := getDescriptor w == 0x84
/-- `a.asIndex()`. -/
def ix (w : Word) : Nat := (asIndex w).toNat
/-- `Atom::IPointer(n)`. -/
def ip (n : Nat) : Word := iPointer (BitVec.ofNat 16 n)
/-- `a.getAtomCount()`. -/
def count (w : Word) : Nat := (getAtomCount w).toNat

/-- The loop of `copy_structure` (r_exec/binding_map.cpp:249-258): `k` words remain, the next one is number
`i`; `start` is `extent_start`; `d`, `e` are the destination and `extent_index`. -/
def copyMembers (rec : Code → Nat → Nat → Option (Code × Nat)) (src : Code) (idx start : Nat) :
    Nat → Nat → Code → Nat → Option (Code × Nat)
  | 0, _, d, e => some (d, e)
  | k + 1, i, d, e =>
    match src[idx + i]? with
    | none => none
    | some a =>
      if isPtr a then
        (rec (put d (start + i) (ip e)) e (ix a)).bind fun r =>
          copyMembers rec src idx start k (i + 1) r.1 r.2
      else copyMembers rec src idx start k (i + 1) (put d (start + i) a) e

/-- r_exec/binding_map.cpp:242-259 `StructureValue::copy_structure(destination, extent_index, source,
source_index)`: the destination and the new `extent_index`. The first argument bounds the depth. -/
def copyStructure (src : Code) : Nat → Code → Nat → Nat → Option (Code × Nat)
  | 0, _, _, _ => none
  | f + 1, d, e, i =>
    match src[i]? with
    | none => none
    | some h => copyMembers (copyStructure src f) src i e (count h + 1) 0 d (e + (1 + count h))

/-- r_exec/binding_map.cpp:214-219 and binding_map.h:185-186 `StructureValue(map, source, structure_index)`:
the code of `structure_`; with index 0, `StructureValue::copy` (binding_map.cpp:237-240). -/
def structureValue (f : Nat) (src : Code) (i : Nat) : Option Code :=
  (copyStructure src f [] 0 i).map (·.1)

/-- r_exec/binding_map.cpp:221-226 `StructureValue(map, time)`. -/
def timeValue (t : BitVec 64) : Code := [timestamp, hi32 t, lo32 t]

/-- r_exec/binding_map.h:194-197 `StructureValue::valuate(destination, write_index, extent_index)`. -/
def valuateStruct (f : Nat) (c d : Code) (write ext : Nat) : Option (Code × Nat) :=
  copyStructure c f (put d write (ip ext)) ext 0

end Verif.Values
