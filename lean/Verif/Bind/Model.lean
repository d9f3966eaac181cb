import Verif.Instance.Model
/-!
# Binding a pattern

`HLPBindingMap::bind_pattern` and `need_binding` (r_exec/binding_map.cpp:1188-1262): the pattern with the values
of its variables. Objects are numbered by their place in `h`; new ones are added at the end. Indices are
naturals, `none` is undefined behaviour or recursion without end.
-/
namespace Verif.Bind
open Verif.Atom Verif.Words Verif.BindMap Verif.Values Verif.Instance

/-- `Opcodes::Ont`, `Ent`, `Mdl`, `Cst`. -/
structure Kinds where
  ont : BitVec 16
  ent : BitVec 16
  mdl : BitVec 16
  cst : BitVec 16

/-- The objects never bound (r_exec/binding_map.cpp:1229-1233). -/
def fixed (K : Kinds) (w : Word) : Bool :=
  asOpcode w == K.ont || asOpcode w == K.ent || asOpcode w == K.mdl || asOpcode w == K.cst

/-- The cases `TIMESTAMP`, `DURATION`, `STRING` (r_exec/binding_map.cpp:1213-1215, 1248-1250). -/
def isData (w : Word) : Bool := getDescriptor w == 0xC7 || getDescriptor w == 0xD0 || getDescriptor w == 0xC6

/-- The loop over the code in `need_binding` (r_exec/binding_map.cpp:1241-1256), from `i` on. -/
def scanVar (c : Code) : Nat → Nat → Bool
  | 0, _ => false
  | k + 1, i =>
    match c[i]? with
    | none => false
    | some w =>
      if getDescriptor w = 0x86 then true
      else if isData w then scanVar c k (i + count w + 1)
      else scanVar c k (i + 1)

/-- The loop over the references in `need_binding` (r_exec/binding_map.cpp:1235-1239). -/
def anyRef (g : Nat → Option Bool) : List Nat → Option Bool
  | [] => some false
  | r :: rs => (g r).bind fun b => if b then some true else anyRef g rs

/-- r_exec/binding_map.cpp:1227-1259 `need_binding(pattern)`. -/
def needBinding (K : Kinds) (h : List Obj) : Nat → Nat → Option Bool
  | 0, _ => none
  | f + 1, p =>
    match h[p]? with
    | none => none
    | some o =>
      match o.code[0]? with
      | none => none
      | some w =>
        if fixed K w then some false
        else (anyRef (needBinding K h f) o.refs).map fun b => b || scanVar o.code o.code.length 1

/-- `for (j = i + 1; j <= i + atom_count; ++j) bound_pattern->code(j) = pattern->code(j)`
(r_exec/binding_map.cpp:1218-1219): `n` words remain. -/
def copyData (c : Code) : Nat → Nat → Obj → Option Obj
  | 0, _, o => some o
  | n + 1, j, o =>
    match c[j]? with
    | none => none
    | some w => copyData c n (j + 1) (o.put j w)

/-- The loop over the code in `bind_pattern` (r_exec/binding_map.cpp:1206-1226), from `i` on. -/
def bindWords (f : Nat) (m : BMap) (c : Code) : Nat → Nat → Obj → Nat → Option (Obj × Nat)
  | 0, _, o, e => some (o, e)
  | k + 1, i, o, e =>
    match c[i]? with
    | none => some (o, e)
    | some w =>
      if getDescriptor w = 0x86 then
        match m.slots[ix w]? with
        | none => none
        | some s => (valuate f s o i e).bind fun r => bindWords f m c k (i + 1) r.1 r.2
      else if isData w then
        (copyData c (count w) (i + 1) (o.put i w)).bind fun o => bindWords f m c k (i + count w + 1) o e
      else bindWords f m c k (i + 1) (o.put i w) e

/-- The loop over the references in `bind_pattern` (r_exec/binding_map.cpp:1195-1202). -/
def bindRefs (need : List Obj → Nat → Option Bool) (bind : List Obj → Nat → Option (List Obj × Nat)) :
    List Nat → List Obj → List Nat → Option (List Obj × List Nat)
  | [], h, rs => some (h, rs)
  | r :: refs, h, rs =>
    (need h r).bind fun b =>
      if b then (bind h r).bind fun x => bindRefs need bind refs x.1 (rs ++ [x.2])
      else bindRefs need bind refs h (rs ++ [r])

/-- r_exec/binding_map.cpp:1188-1225 `bind_pattern(pattern)`; `build_object` (mem.tpl.cpp:154-191) makes an
object with the given first word. -/
def bindPattern (K : Kinds) (m : BMap) : Nat → List Obj → Nat → Option (List Obj × Nat)
  | 0, _, _ => none
  | f + 1, h, p =>
    (needBinding K h f p).bind fun b =>
      if b then
        match h[p]? with
        | none => none
        | some o =>
          match o.code[0]? with
          | none => none
          | some w =>
            (bindRefs (fun h => needBinding K h f) (bindPattern K m f) o.refs h []).bind fun x =>
              (bindWords f m o.code o.code.length 1 ⟨[w], x.2⟩ o.code.length).map fun r =>
                (x.1 ++ [r.1], x.1.length)
      else some (h, p)

end Verif.Bind
