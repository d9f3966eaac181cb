import Verif.ViewCtl.Props
/-!
# mod, set and fvw

Transcription of `IPGMContext::getMember` (`/repo/r_exec/context.cpp:417-477`), of the commands mod and set
(`/repo/r_exec/pgm_overlay.cpp:353-413`), of `Object::mod`, `set`, `get_psln_thr`
(`/repo/r_exec/object.tpl.cpp:134-165`), of `Group::Mod`, `Group::Set` and their execution at the update of
the group (`/repo/r_exec/group.h:216-246`, `/repo/r_exec/group.cpp:570-576`) and of `IPGMContext::Fvw`
(`/repo/r_exec/context.cpp:734-758`).

Simplifications: numbers are exact; of a group, its views, its threshold for saliency and the word of its
code that `getMember` takes for an oid are kept; an update concerns all views of the group and keeps them;
`none` stands for undefined behaviour.
-/
namespace Verif.ModSet
open Verif.F32 Verif.ViewCtl

/-- An object: the number of its members, the size of its code (members and their parts), the numbers in
its code. -/
structure Obj where
  arity : Nat
  size : Nat
  code : Nat → Rat

/-- `get_psln_thr` (object.tpl.cpp:134-140). -/
def Obj.psln (o : Obj) : Rat := o.code o.arity

def Obj.put (o : Obj) (m : Nat) (v : Rat) : Obj := { o with code := fun i => if i = m then v else o.code i }

/-- `Object::mod` (object.tpl.cpp:142-155). -/
def Obj.mod (o : Obj) (m : Nat) (v : Rat) : Obj := if m ≠ o.size - 1 then o else o.put m (clamp (o.code m + v))

/-- `Object::set` (object.tpl.cpp:157-165). -/
def Obj.set (o : Obj) (m : Nat) (v : Rat) : Obj := if m ≠ o.size - 1 then o else o.put m v

/-- `View::mod`, `View::set` take the index of the member (view.inline.cpp:293-327;
`/repo/r_code/replicode_defs.h:97-103`). -/
def member : Nat → Option Member
  | 3 => some .sln
  | 4 => some .res
  | 7 => some .act
  | 8 => some .vis
  | _ => none

/-- A pending operation (group.h:216-246). -/
structure Pend where
  isSet : Bool
  oid : Nat
  m : Nat
  v : Rat

/-- A group: its views by oid, `pending_operations_`, its saliency threshold, and the word of its code
at `VIEW_OID` (an atom). -/
structure Grp where
  views : Nat → Option View
  pending : List Pend
  slnThr : Chan
  word12 : Nat

/-- Objects, groups, where groups are in memory. -/
structure Mem where
  objs : Nat → Obj
  grps : Nat → Grp
  addr : Nat → Nat

def Mem.setGrp (s : Mem) (g : Nat) (x : Grp) : Mem := { s with grps := fun j => if j = g then x else s.grps j }
def Mem.setObj (s : Mem) (o : Nat) (x : Obj) : Mem := { s with objs := fun j => if j = o then x else s.objs j }

/-- What the pointer of a mod or set leads to, before its last index: an object other than a group, a
group (with the view it was seen through, if it is an input), a view, the copy of a view that fvw made, a
number. -/
inductive Place
  | obj (o : Nat)
  | grp (g : Nat) (through : Option (Nat × Nat))
  | view (host oid : Nat)
  | copy (host oid : Nat)
  | atomic
deriving DecidableEq

inductive Target
  | null
  | view (g oid : Nat)
  | object (o : Nat)
deriving DecidableEq

/-- `getMember` (context.cpp:446-473): groups are taken for views; the address of the host is kept in 32
bits of the copy of a view (context.cpp:461, 750). -/
def getMember (s : Mem) : Place → Option Target
  | .obj o => some (.object o)
  | .grp g (some (h, _)) => some (.view h (s.grps g).word12)
  | .grp _ none => none
  | .view h oid => some (.view h oid)
  | .copy h oid => if s.addr h < 2 ^ 32 then some (.view h oid) else none
  | .atomic => some .null

/-- mod and set (pgm_overlay.cpp:353-413). -/
def command (s : Mem) (isSet : Bool) (p : Place) (m : Nat) (v : Rat) : Option Mem :=
  match getMember s p with
  | none => none
  | some .null => some s
  | some (.view g oid) => some (s.setGrp g { s.grps g with pending := (s.grps g).pending ++ [⟨isSet, oid, m, v⟩] })
  | some (.object o) => some (s.setObj o (if isSet then (s.objs o).set m v else (s.objs o).mod m v))

/-- `execute` (group.h:228-233, 240-245). -/
def exec (views : Nat → Option View) (q : Pend) : Nat → Option View :=
  match views q.oid, member q.m with
  | some x, some k => fun j => if j = q.oid then some (if q.isSet then x.set exact k q.v else x.mod exact k q.v) else views j
  | _, _ => views

/-- The group is updated: pending operations (group.cpp:570-576), then the threshold (group.cpp:578-581)
and the views. -/
def update (s : Mem) (g : Nat) : Mem :=
  s.setGrp g { s.grps g with
    views := fun j => ((s.grps g).pending.foldl exec (s.grps g).views j).map (View.update exact)
    pending := []
    slnThr := (s.grps g).slnThr.updateThr exact }

/-- A view that may have been freed. -/
structure Slot where
  view : View
  freed : Bool

/-- Objects with their views by group. -/
structure Heap where
  slot : Nat → Nat → Option Slot
  addr : Nat → Nat

/-- What fvw leaves in the value array: the values of the view, the address of its group in 32 bits. -/
structure Copy where
  view : View
  host : Nat

/-- `Fvw` (context.cpp:734-758): `get_view` hands back the view itself (object.tpl.cpp:167-182), which is
deleted at context.cpp:752. -/
def fvw (h : Heap) (o g : Nat) : Option (Option Copy × Heap) :=
  match h.slot o g with
  | none => some (none, h)
  | some s =>
    if s.freed then none
    else some (some ⟨s.view, h.addr g % 2 ^ 32⟩,
      { h with slot := fun o' g' => if o' = o ∧ g' = g then some { s with freed := true } else h.slot o' g' })

end Verif.ModSet
