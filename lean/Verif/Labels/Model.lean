import Verif.TimeText.Model

/-!
# Labels of decompiled objects

`Decompiler::decompile_references` gives every object of an image a name; `Decompiler::decompile` writes the objects under
these names. Here: which objects are written, and under which names; what is written is not in this model.
`none`: the program does not end.
-/
namespace Verif.Labels

abbrev Name := List Char

/-- What names depend on: `oid_` and the opcode of the head (`code_[0]`) of a `SysObject`. -/
structure Sys where
  oid : BitVec 32
  op : Nat
  deriving DecidableEq

/-- `code_segment_.objects_` and `object_names_.symbols_` of an image (segments.h:148-190). -/
structure Img where
  objs : List Sys
  symbols : BitVec 32 → Option Name

/-- `object_names_`, `object_indices_` and `named_objects_` (decompiler.h:119-120, 147); the last is a set of `uint16`. -/
structure St where
  names : Nat → Option Name
  indices : List (Name × Nat)
  named : BitVec 16 → Bool

/-- A new decompiler (decompiler.cpp:111-114). -/
def start : St := ⟨fun _ => none, [], fun _ => false⟩

/-- `object_indices_.find(s) != object_indices_.end()`. -/
def known (s : St) (n : Name) : Bool := s.indices.any fun p => p.1 = n

/-- `object_names_[i] = n; object_indices_[n] = i;` (decompiler.cpp:260-261, 308-309). -/
def put (s : St) (i : Nat) (n : Name) : St :=
  { s with names := fun k => if k = i then some n else s.names k, indices := (n, i) :: s.indices }

def letter (n : Nat) : Char := Char.ofNat (97 + n)

/-- `make_suffix` (decompiler.cpp:97-109). -/
def makeSuffix (v : Nat) : Name :=
  if v < 26 then [letter v] else makeSuffix (v / 26) ++ [letter (v % 26)]
termination_by v
decreasing_by omega

/-- The loop over suffixes (decompiler.cpp:296-306) with `v` from 1 on, a `uint32`; `f`: how many are left to be tried. -/
def tryFrom (s : St) (n : Name) : Nat → Nat → Option Name
  | 0, _ => none
  | f + 1, v => if known s (n ++ makeSuffix (v % 4294967296)) then tryFrom s n f (v + 1) else some (n ++ makeSuffix (v % 4294967296))

/-- The name of a class as part of a name (decompiler.cpp:278-284). -/
def ident (c : Name) : Name := c.flatMap fun x => if x = '.' then ['_'] else if x = '|' then "anti_".toList else [x]

/-- `UNDEFINED_OID` (replicode_defs.h:285). -/
def undefinedOid : BitVec 32 := 0xFFFFFFFF

/-- The name that is tried first (decompiler.cpp:286-294); `k`: `object_ID_per_class`, a `uint16`. -/
def made (cls : Nat → Name) (o : Sys) (k : Nat) : Name :=
  if o.oid ≠ undefinedOid then ident (cls o.op) ++ '_' :: TimeText.dec o.oid.toNat
  else ident (cls o.op) ++ TimeText.dec k

/-- The first pass (decompiler.cpp:245-263), from object `i` on; `false`: it returned (decompiler.cpp:255-258). -/
def pass1 (sy : BitVec 32 → Option Name) : St → Nat → List Sys → Bool × St
  | s, _, [] => (true, s)
  | s, i, o :: r =>
    match sy o.oid with
    | none => pass1 sy s (i + 1) r
    | some n =>
      let s' := { s with named := fun x => x = o.oid.setWidth 16 || s.named x }
      if (s.names i).any fun t => t ≠ [] ∧ t ≠ n then (false, s')
      else pass1 sy (put s' i n) (i + 1) r

/-- The second pass (decompiler.cpp:266-310), from object `i` on; `ids`: `object_ID_per_class`, by opcode. -/
def pass2 (cls : Nat → Name) (sy : BitVec 32 → Option Name) : St → (Nat → Nat) → Nat → List Sys → Option St
  | s, _, _, [] => some s
  | s, ids, i, o :: r =>
    if (sy o.oid).isSome ∨ (s.names i).isSome then pass2 cls sy s ids (i + 1) r
    else
      let ids' := if o.oid ≠ undefinedOid then ids else fun c => if c = o.op then (ids c + 1) % 65536 else ids c
      let n := made cls o (ids o.op)
      if known s n then
        match tryFrom s n 4294967296 1 with
        | none => none
        | some n => pass2 cls sy (put s i n) ids' (i + 1) r
      else pass2 cls sy (put s i n) ids' (i + 1) r

/-- `decompile_references` without names of its own (decompiler.cpp:225-315): the number it returns and the state. The
indices of the loops are `uint16`: they do not end for 65536 objects. -/
def references (cls : Nat → Name) (s : St) (im : Img) : Option (Nat × St) :=
  if im.objs.length < 65536 then
    match pass1 im.symbols s 0 im.objs with
    | (false, s) => some (0, s)
    | (true, s) => (pass2 cls im.symbols s (fun _ => 0) 0 im.objs).map fun s => (im.objs.length, s)
  else none

/-- The objects that `decompile_object` writes, and their labels (decompiler.cpp:333-382), from object `i` on. -/
def written (s : St) (ignore : Bool) : Nat → List Sys → List (Nat × Name)
  | _, [] => []
  | i, o :: r =>
    if ignore ∧ s.named (o.oid.setWidth 16) then written s ignore (i + 1) r
    else (i, (s.names i).getD []) :: written s ignore (i + 1) r

/-- What comes out of `decompile`: the number of objects, the objects written with their labels, and the names by which
they are referred to (`get_object_name`, decompiler.cpp:147-157). -/
structure Out where
  count : Nat
  text : List (Nat × Name)
  refer : Nat → Name

/-- `decompile` of an image (decompiler.cpp:198-208). -/
def decompile (cls : Nat → Name) (s : St) (im : Img) (ignore : Bool) : Option (Out × St) :=
  (references cls s im).map fun p =>
    (⟨p.1, written p.2 ignore 0 im.objs, fun i => (p.2.names i).getD "unknown-object".toList⟩, p.2)

/-- Images one after another by the same decompiler (AERA/main.cpp:314-315, 411-467). -/
def decompileAll (cls : Nat → Name) (ignore : Bool) : St → List Img → Option (List Out)
  | _, [] => some []
  | s, im :: r =>
    match decompile cls s im ignore with
    | none => none
    | some (o, s) => (decompileAll cls ignore s r).map (o :: ·)

end Verif.Labels
