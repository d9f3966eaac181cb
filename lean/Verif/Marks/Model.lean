/-!
# Marker sets

Transcription of what becomes of `markers_`, the list of the markers of an object: `Group::load`
(`/repo/r_exec/group.cpp:543-547`), `Group::inject_new_object` (1012-1030), `Group::inject_existing_object` (1034-1042),
`Group::inject_notification` (1104-1117), `_Mem::inject`, `inject_new_object` and `inject_notification`
(`/repo/r_exec/mem.cpp:798-817, 989-1021, 1063-1070`), `MemStatic::bind` (1448-1463), `View::delete_from_object`
(`/repo/r_exec/view.cpp:303-310`), `Object::invalidate` and the destructor (`/repo/r_exec/object.tpl.cpp:95-125`),
`Code::remove_marker` (`/repo/r_code/object.h:289-294`), and `Group::get_secondary_group` (`/repo/r_exec/group.cpp:1268-1286`).

Objects are numbers, which are not used again when objects are gone.  An object has all its references when it is made (they are added
before it is injected).  Injections that are due later are the same operation, later.  Hosts are not invalidated.  An object
can be deleted when no object refers to it and it has no view; if a group still has a view of an object that was invalidated that
is later, which makes no difference as any time may pass.  One thread.
-/
namespace Verif.Marks

/-- An object: whether its descriptor is `MARKER`; whether it is an `Object`, or a `LocalObject` that is none, whose `invalidate` does
nothing (`/repo/r_code/object.h:268`; `MemExec::build_object` makes such notifications, `/repo/r_exec/mem.tpl.cpp:130-140, 175-185`);
the groups of a `mk.grp_pair`; `references_`, `markers_`, and the groups of `views_`. -/
structure Obj where
  marker : Bool := false
  exec : Bool := true
  pair : Option (Nat × Nat) := none
  refs : List Nat := []
  marks : List Nat := []
  views : List Nat := []
  registered : Bool := false
  valid : Bool := true
  alive : Bool := true
deriving DecidableEq, Repr

/-- The objects there are, and the number of the next. -/
structure State where
  obj : Nat → Obj := fun _ => { alive := false }
  next : Nat := 0

def upd (h : Nat → Obj) (a : Nat) (f : Obj → Obj) : Nat → Obj := fun b => if b = a then f (h b) else h b

/-- The loops of group.cpp:544-545, 1016-1022 and 1111-1117. -/
def pushAll (h : Nat → Obj) (m : Nat) : List Nat → Nat → Obj
  | [] => h
  | r :: rs => pushAll (upd h r fun o => { o with marks := o.marks ++ [m] }) m rs

/-- The loop of object.tpl.cpp:117-118; `list::remove` removes one (`/repo/r_code/list.h:326-337`). -/
def removeAll (h : Nat → Obj) (m : Nat) : List Nat → Nat → Obj
  | [] => h
  | r :: rs => removeAll (upd h r fun o => { o with marks := o.marks.erase m }) m rs

/-- `views_.insert`: one for each group (`/repo/r_code/object.h:208-213`). -/
def addView (g : Nat) (o : Obj) : Obj := { o with views := if g ∈ o.views then o.views else o.views ++ [g] }

/-- `bind`. -/
def bind (h : Nat → Obj) (a g : Nat) : Nat → Obj := upd h a fun o => { addView g o with registered := true }

/-- `invalidate`. -/
def invalidate (h : Nat → Obj) (a : Nat) : Nat → Obj :=
  if (h a).exec && (h a).valid then
    let h' := upd h a fun o => { o with valid := false, views := [] }
    if (h a).marker then removeAll h' a (h a).refs else h'
  else h

inductive Op where
  /-- an object is made -/
  | create (marker exec : Bool) (pair : Option (Nat × Nat)) (refs : List Nat)
  /-- an object is loaded with a view in a group -/
  | load (a g : Nat)
  /-- a view is injected -/
  | inject (a g : Nat)
  /-- a notification is injected -/
  | notify (a g : Nat)
  /-- a view of an object in a group is at its end -/
  | drop (a g : Nat)
  | invalidate (a : Nat)
  | delete (a : Nat)
deriving DecidableEq

/-- One operation; `none` if it cannot happen. -/
def step (s : State) : Op → Option State
  | .create mk ex pr refs =>
    if (∀ r ∈ refs, r < s.next ∧ (s.obj r).alive = true) ∧ (∀ p, pr = some p → mk = true ∧ p.1 ∈ refs ∧ p.2 ∈ refs) then
      some ⟨upd s.obj s.next fun _ => { marker := mk, exec := ex, pair := pr, refs := refs }, s.next + 1⟩
    else none
  | .load a g =>
    if (s.obj a).alive then
      let h := bind s.obj a g
      some { s with obj := if (s.obj a).marker then pushAll h a (s.obj a).refs else h }
    else none
  | .inject a g =>
    if (s.obj a).alive then
      if (s.obj a).valid then
        if (s.obj a).registered then some { s with obj := upd s.obj a (addView g) }
        else
          let h := bind s.obj a g
          some { s with obj := if (s.obj a).marker then pushAll h a (s.obj a).refs else h }
      else some s
    else none
  | .notify a g =>
    if (s.obj a).alive && (s.obj a).marker then some { s with obj := pushAll (bind s.obj a g) a (s.obj a).refs }
    else none
  | .drop a g =>
    if (s.obj a).alive && decide (g ∈ (s.obj a).views) then
      let h := upd s.obj a fun o => { o with views := o.views.erase g }
      some { s with obj := if (h a).views.isEmpty then invalidate h a else h }
    else none
  | .invalidate a => if (s.obj a).alive then some { s with obj := invalidate s.obj a } else none
  | .delete a =>
    if (s.obj a).alive ∧ (s.obj a).views = [] ∧ ∀ b < s.next, (s.obj b).alive = true → a ∉ (s.obj b).refs then
      some { s with obj := upd (invalidate s.obj a) a fun o => { o with alive := false } }
    else none

/-- `get_secondary_group`: the second of the first pair of which the group is the first; `none` when an object is looked at that is gone. -/
def secondary (s : State) (a : Nat) : List Nat → Option (Option Nat)
  | [] => some none
  | m :: ms =>
    if (s.obj m).alive then
      match (s.obj m).pair with
      | some (f, t) => if f = a then some (some t) else secondary s a ms
      | none => secondary s a ms
    else none

end Verif.Marks
