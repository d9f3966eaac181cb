import Verif.ViewCtl.Model
/-!
# Content visibility

Transcription of `Group::cov` (`/repo/r_exec/group.cpp:1169-1211`), with `_Mem::inject_copy` and
`_Mem::inject_existing_object` (`/repo/r_exec/mem.cpp:769-779`), `Group::inject_existing_object` and the
part of `Group::inject` for objects and markers (group.cpp:1032-1050, 962-969), and the copy of a view to another group
(`/repo/r_exec/view.cpp:151-178`).

Groups are numbers. Of views only the group and the saliency are kept; of requests, only the saliency asked for.

Simplifications: the locks of groups can be taken again by the thread that holds them (the class is in a library that
is not in the repository; if it were otherwise, mutual visibility would stop the thread); other threads, notifications
and what programs are given (C99, C100) are left out.
-/
namespace Verif.Cov
open Verif.F32 Verif.ViewCtl

/-- The groups: for each, those that see it with content visibility, in the order they are iterated in
(`viewing_groups_` with true); and their saliency thresholds. -/
structure Net where
  A : Arith
  sees : Nat → List Nat
  thr : Nat → Rat

/-- An object: its views, and the requests (`Group::Set`) made on them. -/
structure St where
  views : List (Nat × Rat)
  sets : List (Nat × Rat)
deriving DecidableEq

/-- The groups the object has views in. -/
def St.groups (st : St) : List Nat := st.views.map Prod.fst

/-- The saliency of a copy (view.cpp:161). -/
def Net.morph (N : Net) (source dest : Nat) (s : Rat) : Rat := morphValue N.A s (N.thr source) (N.thr dest)

/-- `inject_copy` (mem.cpp:769-779, group.cpp:1032-1050): `inj` is `Group::inject`. -/
def copy (N : Net) (inj : Nat → Rat → St → Option St) (g : Nat) (s : Rat) (st : St) (h : Nat) : Option St :=
  if h ∈ st.groups then some ⟨st.views, st.sets ++ [(h, N.morph g h s)]⟩
  else inj h (N.morph g h s) ⟨st.views ++ [(h, N.morph g h s)], st.sets⟩

/-- The loop of `cov(view)` (group.cpp:1169-1177). -/
def spread (N : Net) (inj : Nat → Rat → St → Option St) (g : Nat) (s : Rat) : List Nat → St → Option St
  | [], st => some st
  | h :: hs, st => (copy N inj g s st h).bind (spread N inj g s hs)

/-- `Group::inject` of an object or marker whose view in the group has the saliency `s` (group.cpp:962-969). -/
def inject (N : Net) : Nat → Nat → Rat → St → Option St
  | 0, _, _, _ => none
  | n + 1, g, s, st => spread N (inject N n) g s (N.sees g) st

/-- What an object is (its first atom). -/
inductive Sort'
  | object
  | marker
  | group
  | program
  | state
  | model
deriving DecidableEq

/-- A view that has become salient. -/
structure Nsv where
  obj : Nat
  sort : Sort'
  notification : Bool
  sln : Rat

/-- The views that `cov()` copies (group.cpp:1191-1207). -/
def Nsv.copied (v : Nsv) : Bool :=
  !v.notification && match v.sort with
  | .object => true
  | .marker => true
  | _ => false

/-- One viewing group in `cov()` (group.cpp:1189-1208): the objects are a function of their numbers. -/
def covGroup (N : Net) (n : Nat) (g h : Nat) : List Nsv → (Nat → St) → Option (Nat → St)
  | [], σ => some σ
  | v :: vs, σ =>
    if v.copied then
      (copy N (inject N n) g v.sln (σ v.obj) h).bind fun st => covGroup N n g h vs (fun o => if o = v.obj then st else σ o)
    else covGroup N n g h vs σ

/-- `cov()` (group.cpp:1179-1211). -/
def cov (N : Net) (n : Nat) (g : Nat) (vs : List Nsv) : List Nat → (Nat → St) → Option (Nat → St)
  | [], σ => some σ
  | h :: hs, σ => (covGroup N n g h vs σ).bind (cov N n g vs hs)

end Verif.Cov
