/-!
# The views of a group

The six maps of views of a `Group` (r_exec/group.h), the loops over them, and the functions that put views
into them and take them out. A map (`std::unordered_map` from OID to view) is the list of its views in the
order in which it is iterated. `none` is undefined behaviour or a loop without end.
-/
namespace Verif.GroupViews

/-- The kinds of objects, by the descriptor of their first word (r_code/atom.h:148-165). -/
inductive Kind
  | nullPgm | ipgm | icpp | cst | mdl | anti | inputLess | marker | object | group
deriving DecidableEq

/-- A view: its OID, the kind of its object, and whether it is a `NotificationView` (those hold markers,
r_exec/view.cpp:322-342). -/
structure V where
  oid : Nat
  kind : Kind
  ntf : Bool
deriving DecidableEq

/-- The categories: the maps of r_exec/group.h:189-194. -/
inductive Cat
  | ipgm | anti | inputLess | ntf | group | other
deriving DecidableEq

abbrev Maps := Cat → List V

def put (m : Maps) (c : Cat) (l : List V) : Maps := fun d => if d = c then l else m d

/-- The map that r_exec/group.cpp:1212-1266 `delete_view` erases from. -/
def fileOf (v : V) : Cat :=
  if v.ntf then .ntf
  else
    match v.kind with
    | .nullPgm | .ipgm | .icpp | .cst | .mdl => .ipgm
    | .anti => .anti
    | .inputLess => .inputLess
    | .object | .marker => .other
    | .group => .group

/-! ## Loops -/

/-- r_exec/group.h:256-286 `all_views_cond`, 303-316 `views_with_inputs_cond` and 327-352
`non_ntf_views_cond`: while the iterator is at the end of its map, go on with the next map. `rem` is what
the iterator has still to visit, `segs` the maps that come next (the code counts them by `selector`).
`cur` is the map that is being iterated. -/
def cond (m : Maps) : Cat → List Cat → List V → Option (Cat × List Cat × V × List V)
  | cur, segs, v :: rem => some (cur, segs, v, rem)
  | _, [], [] => none
  | _, c :: segs, [] => cond m c segs (m c)
termination_by structural _ segs _ => segs

/-- r_exec/group.h:271-285: the order of the maps after `ipgm_views_`. -/
def allSegs : List Cat := [.anti, .inputLess, .ntf, .group, .other]
/-- r_exec/group.h:303-316. -/
def inputSegs : List Cat := [.anti]
/-- r_exec/group.h:327-352. -/
def nonNtfSegs : List Cat := [.anti, .inputLess, .group, .other]

/-- A loop whose body does not change the maps (`FOR_ALL_VIEWS_BEGIN` and the like, r_exec/group.h:288-292,
318-322, 354-358): the views visited. -/
def visit (m : Maps) : Nat → Cat → List Cat → List V → Option (List V)
  | 0, _, _, _ => none
  | f + 1, cur, segs, rem =>
    match cond m cur segs rem with
    | none => some []
    | some (cur, segs, v, rem) => (visit m f cur segs rem).map (v :: ·)

/-- What the update of a view decides (r_exec/group.cpp:589-625): whether to keep it, and the notifications
that are injected into this very group meanwhile (r_exec/group.cpp:398-403, 419-433, 447-461, if the group
is among its own notification groups). -/
structure Act where
  keep : Bool
  new : List V

/-- Insertion of notifications. `place l v` is the map after the insertion of `v`, in the order the hash
table chooses. Inserting into the map that is being iterated may invalidate the iterator. -/
def insertNew (place : List V → V → List V) (m : Maps) (cur : Cat) : List V → Option Maps
  | [] => some m
  | v :: vs => if cur = .ntf then none else insertNew place (put m .ntf (place (m .ntf) v)) cur vs

/-- The loop of r_exec/group.cpp:587-627 in `Group::update` (`FOR_ALL_VIEWS_BEGIN_NO_INC`): the views visited
and the maps left. `delete_view(v)` erases from the map chosen by the view, with an iterator into the map
being iterated: these must be the same. -/
def update (place : List V → V → List V) (act : V → Act) :
    Nat → Maps → Cat → List Cat → List V → Option (List V × Maps)
  | 0, _, _, _, _ => none
  | f + 1, m, cur, segs, rem =>
    match cond m cur segs rem with
    | none => some ([], m)
    | some (cur, segs, v, rem) =>
      (insertNew place m cur (act v).new).bind fun m =>
      if (act v).keep then (update place act f m cur segs rem).map fun r => (v :: r.1, r.2)
      else if fileOf v = cur then
        (update place act f (put m cur ((m cur).erase v)) cur segs rem).map fun r => (v :: r.1, r.2)
      else none

/-! ## Filing -/

/-- `map[view->get_oid()] = view`. -/
def store (place : List V → V → List V) (m : Maps) (c : Cat) (v : V) : Maps :=
  put m c (place ((m c).filter (·.oid ≠ v.oid)) v)

/-- r_exec/group.cpp:468-553 `Group::load`. There are no null programs in images. -/
def load (place : List V → V → List V) (m : Maps) (v : V) : Maps :=
  match v.kind with
  | .group => store place m .group v
  | .ipgm | .icpp | .cst | .mdl => store place m .ipgm v
  | .inputLess => store place m .inputLess v
  | .anti => store place m .anti v
  | .marker | .object => store place m .other v
  | .nullPgm => m

/-- r_exec/group.cpp:890-1010 `Group::inject`: there is no case for groups. -/
def inject (place : List V → V → List V) (m : Maps) (v : V) : Maps :=
  match v.kind with
  | .nullPgm | .ipgm | .icpp | .cst | .mdl => store place m .ipgm v
  | .anti => store place m .anti v
  | .inputLess => store place m .inputLess v
  | .marker | .object => store place m .other v
  | .group => m

/-- r_exec/mem.cpp:989-1021 `_Mem::inject`, for a view that is due: existing objects go to
`Group::inject_existing_object` (r_exec/group.cpp:1032-1043, here for an object without view in the group),
new ones to `_Mem::inject_new_object` (r_exec/mem.cpp:798-817) and there groups to `Group::inject_group`
(r_exec/group.cpp:1082-1086). -/
def memInject (place : List V → V → List V) (m : Maps) (registered : Bool) (v : V) : Maps :=
  if registered then inject place m v
  else if v.kind = .group then store place m .group v
  else inject place m v

/-- r_exec/group.cpp:1104-1109 `Group::inject_notification`. -/
def injectNtf (place : List V → V → List V) (m : Maps) (v : V) : Maps := store place m .ntf v

/-- r_exec/group.cpp:837-888 `Group::inject_hlps`, for one view, and 1288-1316, for the view of the secondary
controller of a model. -/
def injectHlp (place : List V → V → List V) (m : Maps) (v : V) : Maps :=
  match v.kind with
  | .cst | .mdl => store place m .ipgm v
  | _ => m

/-- r_exec/group.cpp:1212-1238 `Group::delete_view(View *)`. -/
def deleteView (m : Maps) (v : V) : Maps := put m (fileOf v) ((m (fileOf v)).filter (·.oid ≠ v.oid))

/-- r_exec/group.cpp:113-134 `Group::get_view`. -/
def getView (m : Maps) (oid : Nat) : Option V :=
  ((m .other).find? (·.oid = oid)).or (((m .group).find? (·.oid = oid)).or
    (((m .ipgm).find? (·.oid = oid)).or (((m .anti).find? (·.oid = oid)).or
      (((m .inputLess).find? (·.oid = oid)).or ((m .ntf).find? (·.oid = oid))))))

/-- The ways views enter and leave the maps of a group. -/
inductive Op
  | load (v : V) | inject (registered : Bool) (v : V) | ntf (v : V) | hlp (v : V) | delete (v : V)

def step (place : List V → V → List V) (m : Maps) : Op → Maps
  | .load v => load place m v
  | .inject r v => memInject place m r v
  | .ntf v => injectNtf place m v
  | .hlp v => injectHlp place m v
  | .delete v => deleteView m v

end Verif.GroupViews
