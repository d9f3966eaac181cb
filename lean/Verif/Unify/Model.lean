import Verif.Match.Model
import Verif.Values.Model
import Verif.Timings.Model
/-!
# Matching an object with a pattern that has variables

`BindingMap::match`, `match_atom`, `match_structure`, `match_object` (r_exec/binding_map.cpp:655-760, 849-865)
and the `match` functions of the values (124-142, 174-177, 261-266, 331-334). The comparison of words
(`BindingMap::match_atom`, 719-728) is that of `_Fact::MatchAtom`, `Match.matchAtom`.

An object is its code and references (`Match.Obj`); the structure of a `StructureValue` is an object without
references (`new LocalObject()`, 216). The result is the verdict and the map as the matching leaves it, also when
it fails. Indices are naturals. `none` is undefined behaviour (a read outside a code or a list of references, a
null entry of the map) or fuel exhausted.
-/
namespace Verif.Unify
open Verif.Atom Verif.Words Verif.BindMap Verif.Match

/-- `Utils::HasTimestamp(object, index)` (r_code/utils.h:185-195). -/
def hasTimestamp (c : Code) (i : Nat) : Bool :=
  match c[i]? with
  | none => false
  | some a =>
    getDescriptor a == 0x84 && decide ((asIndex a).toNat + 2 < c.length) &&
      ((c[(asIndex a).toNat]?).map getDescriptor == some 0xC7)

/-- `Utils::GetTimestamp(object, index)` (r_code/utils.h:204-208). -/
def timestampAt (c : Code) (i : Nat) : Option (BitVec 64) :=
  c[i]?.bind fun a => getInt64 c ((asIndex a).toNat + 1)

/-- The two variables of a pattern `(ti :v :w)` at `j`, if both have a value (binding_map.cpp:741-746). Outer
`none`: a null entry is asked for its code. -/
def boundTi (m : BMap) (c : Code) (j : Nat) : Option (Option (Nat × Nat)) :=
  match c[j + 1]?, c[j + 2]? with
  | some a, some b =>
    if isVar a && isVar b then
      match m.slots[(asIndex a).toNat]?.bind getCode with
      | none => none
      | some none => some none
      | some (some _) =>
        match m.slots[(asIndex b).toNat]?.bind getCode with
        | none => none
        | some none => some none
        | some (some _) => some (some ((asIndex a).toNat, (asIndex b).toNat))
    else some none
  | _, _ => none

mutual
/-- `BindingMap::match(object, o_base_index, o_index, pattern, p_index, o_arity)`
(r_exec/binding_map.cpp:655-717): the words from number `k` on. -/
def matchFrom (h : Heap) (oc : Opc) (t : Tol) (ti : Word) :
    (fuel : Nat) → BMap → (o : Obj) → (base k : Nat) → (p : Obj) → (j arity : Nat) → Option (Bool × BMap)
  | 0, _, _, _, _, _, _, _ => none
  | fuel + 1, m, o, base, k, p, j, arity =>
    match o.code[base + k]?, p.code[j]? with
    | some wo, some wp =>
      (matchWord h oc t ti fuel m o wo p wp).bind fun r =>
        if r.1 = false then some r
        else if k = arity then some r
        else matchFrom h oc t ti fuel r.2 o base (k + 1) p (j + 1) arity
    | _, _ => none
termination_by structural fuel => fuel

/-- The switch of `BindingMap::match` (binding_map.cpp:658-711) for one word of the object and one of the
pattern. -/
def matchWord (h : Heap) (oc : Opc) (t : Tol) (ti : Word) :
    (fuel : Nat) → BMap → (o : Obj) → (wo : Word) → (p : Obj) → (wp : Word) → Option (Bool × BMap)
  | 0, _, _, _, _, _ => none
  | fuel + 1, m, o, wo, p, wp =>
    if isWild wo || isVar wo then some (true, m)
    else if isVar wp then
      match m.slots[(asIndex wp).toNat]? with
      | none => none
      | some s => matchValue h oc t ti fuel m o wo s
    else if isWild wp then some (true, m)
    else if isIPtr wo then
      if isIPtr wp then matchStructure h oc t ti fuel m o (asIndex wo).toNat p (asIndex wp).toNat
      else some (false, m)
    else if isRPtr wo then
      if isRPtr wp then
        match o.refs[(asIndex wo).toNat]?, p.refs[(asIndex wp).toNat]? with
        | some a, some b => matchObject h oc t ti fuel m a b
        | _, _ => none
      else some (false, m)
    else some (matchAtom t wo wp, m)
termination_by structural fuel => fuel

/-- `Value::match(object, index)`: `UnboundValue` (binding_map.cpp:124-142), `AtomValue` (174-177),
`StructureValue` (261-266), `ObjectValue` (331-334), for the word `wo` of the object `o`. -/
def matchValue (h : Heap) (oc : Opc) (t : Tol) (ti : Word) :
    (fuel : Nat) → BMap → (o : Obj) → (wo : Word) → Slot → Option (Bool × BMap)
  | 0, _, _, _, _ => none
  | fuel + 1, m, o, wo, s =>
    match s with
    | .null => none
    | .unbound id =>
      if getDescriptor wo = 0x84 then
        (Values.structureValue fuel o.code (asIndex wo).toNat).bind fun c =>
          (bindVariable m (.struct c) (id.setWidth 16)).map fun m' => (true, m')
      else if getDescriptor wo = 0x85 then
        (o.refs[(asIndex wo).toNat]?).bind fun r =>
          (bindVariable m (.obj r) (id.setWidth 16)).map fun m' => (true, m')
      else if getDescriptor wo = 0x82 then some (true, m)
      else (bindVariable m (.atom wo) (id.setWidth 16)).map fun m' => (true, m')
    | .bound (.atom w) => some (matchAtom t wo w, m)
    | .bound (.struct c) =>
      if getDescriptor wo ≠ 0x84 then some (false, m)
      else matchStructure h oc t ti fuel m o (asIndex wo).toNat ⟨c, [], []⟩ 0
    | .bound (.obj r) =>
      (o.refs[(asIndex wo).toNat]?).bind fun a => matchObject h oc t ti fuel m a r
termination_by structural fuel => fuel

/-- `BindingMap::match_structure(object, o_base_index, 0, pattern, p_index)` (r_exec/binding_map.cpp:730-760).
`ti` is `Atom::Object(Opcodes::TI, 2)`. -/
def matchStructure (h : Heap) (oc : Opc) (t : Tol) (ti : Word) :
    (fuel : Nat) → BMap → (o : Obj) → (i : Nat) → (p : Obj) → (j : Nat) → Option (Bool × BMap)
  | 0, _, _, _, _, _ => none
  | fuel + 1, m, o, i, p, j =>
    match o.code[i]?, p.code[j]? with
    | some wo, some wp =>
      if wo ≠ wp then some (false, m)
      else if Values.count wo = 0 then some (true, m)
      else if getDescriptor wo = 0xC7 then
        match getInt64 o.code (i + 1), getInt64 p.code (j + 1) with
        | some a, some b => some (synchronous t a b, m)
        | _, _ => none
      else if wp = ti then
        (boundTi m p.code j).bind fun v =>
          match v with
          | none => matchFrom h oc t ti fuel m o i 1 p (j + 1) (Values.count wo)
          | some (v, w) =>
            if hasTimestamp o.code (i + 1) && hasTimestamp o.code (i + 2) then
              match timestampAt o.code (i + 1), timestampAt o.code (i + 2) with
              | some a, some b => Timings.matchTimings m a b v w
              | _, _ => none
            else matchFrom h oc t ti fuel m o i 1 p (j + 1) (Values.count wo)
      else matchFrom h oc t ti fuel m o i 1 p (j + 1) (Values.count wo)
    | _, _ => none
termination_by structural fuel => fuel

/-- `BindingMap::match_object(object, pattern)` (r_exec/binding_map.cpp:849-865). -/
def matchObject (h : Heap) (oc : Opc) (t : Tol) (ti : Word) :
    (fuel : Nat) → BMap → (a b : Nat) → Option (Bool × BMap)
  | 0, _, _, _ => none
  | fuel + 1, m, a, b =>
    match h a, h b with
    | some o, some p =>
      match o.code[0]?, p.code[0]? with
      | some wo, some wp =>
        if wo ≠ wp then some (false, m)
        else if byIdentity oc wp then some (a == b, m)
        else matchFrom h oc t ti fuel m o 0 1 p 1 (Values.count wo)
      | _, _ => none
    | _, _ => none
termination_by structural fuel => fuel
end

end Verif.Unify
