import Mathlib.Data.List.Basic
/-!
# Images made from memory

`Image::add_objects` (r_comp/segments.cpp:491-736) makes an image of the objects in memory, to be saved or
decompiled; `unpack_objects` makes objects in memory from an image. Objects are numbers; the words of their
code play no part and are only counted. Serialisation of the image is the subject of `Verif.Image`.
`none` is undefined behaviour or recursion without end.
-/
namespace Verif.Snapshot

/-- `_View::references_` (r_code/object.h:168): the host group and the origin of a view; may be null. -/
structure View where
  r0 : Option Nat
  r1 : Option Nat
deriving DecidableEq

/-- What an image needs to know of an object. `views` is in the order of iteration over the set. -/
structure Obj where
  /-- `get_oid() != UNDEFINED_OID` -/
  oid : Bool
  /-- `is_invalidated()` -/
  inv : Bool
  /-- `code_size()` -/
  words : Nat
  refs : List Nat
  /-- `MDL_HIDDEN_REFS`, `CST_HIDDEN_REFS` for models and composite states, else 0 -/
  hidden : Nat
  views : List View
deriving DecidableEq

abbrev Heap := Nat → Obj

/-- r_comp/segments.cpp:512-522 `get_reference_count`; defined if there are enough references. -/
def visible (o : Obj) : List Nat := o.refs.take (o.refs.length - o.hidden)

/-- The references of a view that are not null. -/
def View.count (v : View) : Nat := v.r0.toList.length + v.r1.toList.length

/-- `SysObject::get_size` (r_code/object.cpp:254-260) of what the constructor makes of the object
(:175-194, 106-119): all its references, and 13 words of code for each view. -/
def firstSize (o : Obj) : Nat :=
  5 + o.words + o.refs.length + (o.views.map fun v => 2 + 13 + v.count).sum

/-- The image while objects are added: `ptrs_to_indices_` and `code_segment_` (the objects, in order),
`object_map_` (`uint16`) and `map_offset_`. -/
structure St where
  objs : List Nat
  map : List Nat
  off : Nat
deriving DecidableEq

/-- r_comp/segments.cpp:484-489 `add_sys_object`. -/
def St.push (H : Heap) (st : St) (o : Nat) : St :=
  ⟨st.objs ++ [o], st.map ++ [st.off % 65536], st.off + firstSize (H o)⟩

/-- r_comp/segments.cpp:533-541: whether `add_object` follows a reference. -/
def follows (H : Heap) (incl : Bool) (r : Nat) : Bool := incl || !(H r).oid || (H r).inv

/-- r_comp/segments.cpp:524-558 `add_object(object, include_invalidated)`; `f` bounds the recursion. -/
def addObject (H : Heap) (incl : Bool) : Nat → St → Nat → Option St
  | 0, _, _ => none
  | f + 1, st, o =>
    if o ∈ st.objs then some st
    else if (H o).refs.length < (H o).hidden then none
    else
      ((visible (H o)).foldlM (fun st r =>
        if follows H incl r then addObject H incl f st r else some st) st).map fun st => st.push H o

/-- r_comp/segments.cpp:491-501 `add_objects(objects, include_invalidated)`, without the references. -/
def addObjects (H : Heap) (incl : Bool) (f : Nat) (l : List Nat) : Option St :=
  l.foldlM (fun st o => if incl || !(H o).inv then addObject H incl f st o else some st) ⟨[], [], 0⟩

/-- r_comp/segments.cpp:560-615 `add_object(object, imported_objects)`, used for decompiling on the fly:
all references and the groups of the views are followed; the object is entered first. The test whether a
reference is there already (:576-577, :599) is repeated by the call. -/
def addAll (H : Heap) : Nat → St → Nat → Option St
  | 0, _, _ => none
  | f + 1, st, o =>
    if o ∈ st.objs then some st
    else if (H o).refs.length < (H o).hidden then none
    else
      (visible (H o) ++ (H o).views.flatMap fun v => v.r0.toList ++ v.r1.toList).foldlM
        (fun st r => addAll H f st r) (st.push H o)

/-- r_comp/segments.cpp:503-509 `add_objects(objects, imported_objects)`. -/
def addAllObjects (H : Heap) (f : Nat) (l : List Nat) : Option St :=
  l.foldlM (fun st o => addAll H f st o) ⟨[], [], 0⟩

/-- `ptrs_to_indices_.find`: `uint16`. -/
def index (objs : List Nat) (r : Nat) : Option Nat :=
  if r ∈ objs then some (objs.idxOf r % 65536) else none

/-- r_comp/segments.cpp:644-655 `build_references`: the references of an object. -/
def buildRefs (objs : List Nat) (o : Obj) : List Nat := (visible o).filterMap (index objs)

/-- Writing to a `resized_vector` (r_code/resized_vector.h:142-147). -/
def setGrow (l : List Nat) (j v : Nat) : List Nat :=
  if j < l.length then l.set j v else l ++ List.replicate (j - l.length) 0 ++ [v]

/-- One turn of the inner loop r_comp/segments.cpp:663-675. -/
def buildViewRef (objs : List Nat) (l : List Nat) (j : Nat) (r : Option Nat) : List Nat :=
  match r.bind (index objs) with
  | some i => setGrow l j i
  | none => l

/-- r_code/object.cpp:116-118 and r_comp/segments.cpp:657-676: the references of a view, one zero for each
that is not null to begin with. -/
def buildView (objs : List Nat) (v : View) : List Nat :=
  buildViewRef objs (buildViewRef objs (List.replicate v.count 0) 0 v.r0) 1 v.r1

/-- `SysObject`, what matters of it. -/
structure Sys where
  words : Nat
  refs : List Nat
  views : List (List Nat)
deriving DecidableEq

/-- r_comp/segments.cpp:617-639 `build_references`, for one object. The address kept in the first four
references meanwhile is read back and cleared. -/
def build (objs : List Nat) (o : Obj) : Sys :=
  ⟨o.words, buildRefs objs o, o.views.map (buildView objs)⟩

/-- `SysObject::get_size` of the finished object. -/
def Sys.size (s : Sys) : Nat :=
  5 + s.words + s.refs.length + (s.views.map fun v => 2 + 13 + v.length).sum

/-- The finished image: `code_segment_` and `object_map_`. -/
def image (H : Heap) (st : St) : List Sys × List Nat := (st.objs.map fun o => build st.objs (H o), st.map)

/-- r_comp/segments.cpp:690-716 `unpack_objects`: the references of the object made from a `SysObject`, as
indices of the objects made, and those of its views; what is not set stays null. -/
def unpack (s : Sys) : List Nat × List View := (s.refs, s.views.map fun v => ⟨v[0]?, v[1]?⟩)

end Verif.Snapshot
