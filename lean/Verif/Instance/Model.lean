import Verif.Values.Model
/-!
# Instances of models and composite states

`HLPBindingMap::build_f_ihlp` (r_exec/binding_map.cpp:1100-1164) writes the bindings of a model or composite
state as a fact about an instance (`imdl` or `icst`); `init_from_f_ihlp` (1020-1098) reads them back into the
initial map of the same model or state. Objects are identified by numbers; the code of the model or state is
`hlp`. Indices are naturals, `none` is undefined behaviour or recursion without end.
-/
namespace Verif.Instance
open Verif.Atom Verif.Words Verif.BindMap Verif.Values

/-- An object under construction. -/
structure Obj where
  code : Code
  refs : List Nat
  deriving DecidableEq, Repr

/-- `code(i) = w`. -/
def Obj.put (o : Obj) (i : Nat) (w : Word) : Obj := { o with code := Words.put o.code i w }

/-- `Value::valuate(destination, write_index, extent_index)`: unbound (r_exec/binding_map.cpp:119-122), atom
(169-172), object (325-329), structure (binding_map.h:194-197). A null value is dereferenced: undefined. -/
def valuate (f : Nat) (s : Slot) (o : Obj) (write ext : Nat) : Option (Obj × Nat) :=
  match s with
  | .null => none
  | .unbound u => some (o.put write (vlPointer (u.setWidth 16)), ext)
  | .bound (.atom w) => some (o.put write w, ext)
  | .bound (.obj r) =>
    some ({ o.put write (rPointer (BitVec.ofNat 16 o.refs.length)) with refs := o.refs ++ [r] }, ext)
  | .bound (.struct c) => (valuateStruct f c o.code write ext).map fun r => ({ o with code := r.1 }, r.2)

/-- The loop of `build_ihlp_structure` (r_exec/binding_map.cpp:1110-1126): `k` members remain, the next one is
read at `from_` and written at `write`. -/
def buildMembers (f : Nat) (m : BMap) (rec : Obj → Nat → Nat → Option (Obj × Nat)) (hlp : Code) (isTi : Bool) :
    Nat → Nat → Nat → Obj → Nat → Option (Obj × Nat)
  | 0, _, _, o, e => some (o, e)
  | k + 1, from_, write, o, e =>
    match hlp[from_]? with
    | none => none
    | some a =>
      if getDescriptor a = 0x86 ∧ isTi = false then
        match m.slots[ix a]? with
        | none => none
        | some s => (valuate f s o write e).bind fun r => buildMembers f m rec hlp isTi k (from_ + 1) (write + 1) r.1 r.2
      else if isPtr a then
        (rec (o.put write (ip e)) e (ix a)).bind fun r => buildMembers f m rec hlp isTi k (from_ + 1) (write + 1) r.1 r.2
      else buildMembers f m rec hlp isTi k (from_ + 1) (write + 1) (o.put write a) e

/-- r_exec/binding_map.cpp:1100-1126 `build_ihlp_structure(hlp, hlp_structure_index, ihlp, extent_index)`; `ti`
is `Atom::Object(Opcodes::TI, 2)`. -/
def buildStructure (ti : Word) (m : BMap) (hlp : Code) : Nat → Obj → Nat → Nat → Option (Obj × Nat)
  | 0, _, _, _ => none
  | f + 1, o, e, i =>
    match hlp[i]? with
    | none => none
    | some h =>
      buildMembers f m (buildStructure ti m hlp f) hlp (h == ti) (count h) (i + 1) (e + 1) (o.put e h)
        (e + 1 + count h)

/-- Is entry `i` of the map one of the first timings (r_exec/binding_map.cpp:1148-1151)? -/
def isFwd (m : BMap) (i : Nat) : Bool := (i : Int) == m.fwdAfter || (i : Int) == m.fwdBefore

/-- The loop of `build_f_ihlp` over the exposed entries (r_exec/binding_map.cpp:1146-1154): `k` entries remain,
`i` is the next. -/
def buildExposed (f : Nat) (m : BMap) : Nat → Nat → Nat → Obj → Nat → Option (Obj × Nat)
  | 0, _, _, o, e => some (o, e)
  | k + 1, i, write, o, e =>
    if isFwd m i then buildExposed f m k (i + 1) write o e
    else
      match m.slots[i]? with
      | none => none
      | some s => (valuate f s o write e).bind fun r => buildExposed f m k (i + 1) (write + 1) r.1 r.2

/-- `map_[i]` for a signed index. -/
def slotAt (m : BMap) (i : Int) : Option Slot := if i < 0 then none else m.slots[i.toNat]?

/-- The number of exposed arguments, a `uint16` (r_exec/binding_map.cpp:1142). -/
def exposedCount (m : BMap) : BitVec 16 := BitVec.ofNat 16 m.slots.length - m.first - 2

/-- The instance made by `build_f_ihlp` (r_exec/binding_map.cpp:1128-1157); `id` is the model or state. -/
def buildIhlp (ti : Word) (f : Nat) (m : BMap) (hlp : Code) (id : Nat) (opcode : BitVec 16) (wr : Bool) :
    Option Obj :=
  match hlp[1]? with
  | none => none
  | some t =>
    (buildStructure ti m hlp f ⟨[object opcode 5, rPointer 0, iPointer 6], [id]⟩ 6 (ix t)).bind fun r =>
      let o := (r.1.put 3 (ip r.2)).put r.2 (set ((exposedCount m).setWidth 8))
      (buildExposed f m (m.slots.length - m.first.toNat) m.first.toNat (r.2 + 1) o
        (r.2 + 1 + (exposedCount m).toNat)).map fun r =>
          (r.1.put 4 (boolean wr)).put 5 (float 0x3F800000)

/-- The fact made by `build_f_ihlp` (r_exec/binding_map.cpp:1159-1163) with `_Fact::_Fact` (factory.cpp:199-210);
`fop` is `Opcodes::Fact`, the reference stands for the instance. -/
def buildFact (f : Nat) (m : BMap) (fop : BitVec 16) : Option Obj :=
  let o : Obj := ⟨[object fop 5, rPointer 0, iPointer 6, iPointer 9, float 0x3F800000, float 0x3F800000,
    timestamp, 0, 0, timestamp, 0, 0], [0]⟩
  (slotAt m m.fwdAfter).bind fun s => (valuate f s o 2 6).bind fun r =>
    (slotAt m m.fwdBefore).bind fun s => (valuate f s r.1 3 r.2).map fun r => r.1

/-- The value read at a word of an instance (r_exec/binding_map.cpp:1044-1054, 1075-1088), except for the words
that are no value. -/
def readValue (f : Nat) (o : Obj) (w : Word) : Option Val :=
  if getDescriptor w = 0x85 then o.refs[ix w]?.map .obj
  else if getDescriptor w = 0x84 then (structureValue f o.code (ix w)).map .struct
  else some (.atom w)

/-- The loop of `init_from_ihlp_args` (r_exec/binding_map.cpp:1026-1056). -/
def initMembers (f : Nat) (rec : BMap → Nat → Nat → Option BMap) (hlp : Code) (o : Obj) :
    Nat → Nat → Nat → BMap → Option BMap
  | 0, _, _, m => some m
  | k + 1, i, j, m =>
    match hlp[i]?, o.code[j]? with
    | some a, some w =>
      if isPtr a then
        if isPtr w then (rec m (ix a) (ix w)).bind fun m => initMembers f rec hlp o k (i + 1) (j + 1) m
        else initMembers f rec hlp o k (i + 1) (j + 1) m
      else if getDescriptor a ≠ 0x86 then initMembers f rec hlp o k (i + 1) (j + 1) m
      else
        (readValue f o w).bind fun v => (setSlot m v (ix a)).bind fun m =>
          initMembers f rec hlp o k (i + 1) (j + 1) m
    | _, _ => none

/-- r_exec/binding_map.cpp:1020-1057 `init_from_ihlp_args(hlp, hlp_args_index, ihlp, ihlp_args_index)`. -/
def initArgs (hlp : Code) (o : Obj) : Nat → BMap → Nat → Nat → Option BMap
  | 0, _, _, _ => none
  | f + 1, m, i, j =>
    match hlp[i]?, o.code[j]? with
    | some h, some w =>
      if h ≠ w then some m
      else initMembers f (initArgs hlp o f) hlp o (count w) (i + 1) (j + 1) m
    | _, _ => none

/-- The loop of `init_from_f_ihlp` over the exposed arguments (r_exec/binding_map.cpp:1067-1092): wildcards and
variables leave the entry as it is. -/
def initExposed (f : Nat) (o : Obj) : Nat → Nat → Nat → BMap → Option BMap
  | 0, _, _, m => some m
  | k + 1, i, at_, m =>
    if isFwd m i then initExposed f o k (i + 1) at_ m
    else
      match o.code[at_]? with
      | none => none
      | some w =>
        if getDescriptor w = 0x82 ∨ getDescriptor w = 0x83 ∨ getDescriptor w = 0x86 then
          initExposed f o k (i + 1) (at_ + 1) m
        else
          (readValue f o w).bind fun v => (setSlot m v i).bind fun m => initExposed f o k (i + 1) (at_ + 1) m

/-- `map_[i] = new StructureValue(this, fact, fact->code(index).asIndex())`. -/
def initTiming (f : Nat) (fact : Obj) (index : Nat) (m : BMap) (i : Int) : Option BMap :=
  if i < 0 then none
  else (fact.code[index]?).bind fun w => (structureValue f fact.code (ix w)).bind fun c =>
    setSlot m (.struct c) i.toNat

/-- r_exec/binding_map.cpp:1059-1098 `init_from_f_ihlp(f_ihlp)` for the instance `o` and the fact `fact`. -/
def initFrom (f : Nat) (hlp : Code) (o fact : Obj) (m : BMap) : Option BMap :=
  match hlp[1]?, o.code[2]?, o.code[3]? with
  | some t, some u, some x =>
    (initArgs hlp o f m (ix t) (ix u)).bind fun m =>
      (initExposed f o (m.slots.length - m.first.toNat) m.first.toNat (ix x + 1) m).bind fun m =>
        (initTiming f fact 2 m m.fwdAfter).bind fun m => initTiming f fact 3 m m.fwdBefore
  | _, _, _ => none

/-- The loop of `get_ihlp_exposed_args_position` (r_exec/binding_map.cpp:1175-1182). -/
def findPosition (m : BMap) (index : Int) : Nat → Nat → Nat → Int
  | 0, _, _ => -1
  | k + 1, i, position =>
    if isFwd m i then findPosition m index k (i + 1) position
    else if (i : Int) = index then position
    else findPosition m index k (i + 1) (position + 1)

/-- r_exec/binding_map.cpp:1166-1185 `get_ihlp_exposed_args_position(index)`. `index` is an `int16`; a negative
one is below `first_index_`. -/
def exposedPosition (m : BMap) (index : Int) : Int :=
  if index = m.fwdAfter ∨ index = m.fwdBefore ∨ index < m.first.toNat ∨ (m.slots.length : Int) ≤ index then -1
  else findPosition m index (m.slots.length - m.first.toNat) m.first.toNat 0

end Verif.Instance
