import Verif.Atom.Model
/-!
# The code and the values of an overlay

Transcription of `Overlay::patch_code`, `unpatch_code`, `commit`, `rollback`
(`/repo/r_exec/overlay.cpp:146-188`), of the results stored by `_Context`
(`/repo/r_exec/_context.cpp:92-123`, `/repo/r_exec/context.cpp:335-415`) and of the constructor of
offsprings of `PGMOverlay` (`/repo/r_exec/pgm_overlay.cpp:544-567`).

`none` stands for writing outside the code, and for the loops over more than 65535 patches, which do
not terminate (`uint16 i < size()`).  A new `Atom` is the word 0xFFFFFFFF here (`Atom::Atom(uint32 a =
0xFFFFFFFF)`, `/repo/r_code/atom.h`).
-/
namespace Verif.Overlay
open Verif.Atom

/-- `code_`, `patch_indices_`, `values_`, `value_commit_index_` (overlay.h:113-122). -/
structure St where
  code : List Word
  patches : List Nat
  values : List Word
  vci : Nat
deriving Repr, DecidableEq

/-- `Atom()`. -/
def blank : Word := 0xFFFFFFFF#32

/-- `std::vector::resize`. -/
def resize {α : Type} (l : List α) (n : Nat) (d : α) : List α := l.take n ++ List.replicate (n - l.length) d

/-- The loop of overlay.cpp:150-151 and 185-186: the original words put back. -/
def restore (orig : List Word) (code : List Word) : List Nat → List Word
  | [] => code
  | i :: is => restore orig (match orig[i]? with
    | some w => code.set i w
    | none => code) is

/-- `Overlay::patch_code` (overlay.cpp:170-174). -/
def patchCode (s : St) (i : Nat) (w : Word) : Option St :=
  if i < s.code.length then some { s with code := s.code.set i w, patches := s.patches ++ [i] } else none

/-- `values_.push_back(a)` (_context.cpp:123). -/
def pushValue (s : St) (w : Word) : St := { s with values := s.values ++ [w] }

/-- `values_[i] = a` of `resized_vector` (resized_vector.h, context.cpp:338-415). -/
def writeValue (s : St) (i : Nat) (w : Word) : St :=
  { s with values := (if i < s.values.length then s.values else resize s.values (i + 1) blank).set i w }

/-- `Overlay::commit` (overlay.cpp:164-168); `value_commit_index_` is a `uint16`. -/
def commit (s : St) : St := { s with patches := [], vci := s.values.length % 65536 }

/-- `Overlay::rollback` (overlay.cpp:146-162). -/
def rollback (orig : List Word) (s : St) : Option St :=
  if s.patches.length < 65536 then
    let code := restore orig s.code s.patches
    if s.vci = s.values.length then some { s with code := code, patches := [] }
    else
      let values := if s.vci > 0 then resize s.values s.vci blank else []
      some { code := code, patches := [], values := values, vci := values.length % 65536 }
  else none

/-- `Overlay::unpatch_code` (overlay.cpp:181-188). -/
def unpatch (orig : List Word) (s : St) (k : Nat) : Option St :=
  if s.patches.length < 65536 then
    some { s with code := restore orig s.code (s.patches.drop k), patches := resize s.patches k 0 }
  else none

/-- The constructor of offsprings (pgm_overlay.cpp:544-567, overlay.cpp:96-106): `values_` already has
128 new atoms when the committed values are appended. -/
def offspring (orig : List Word) (s : St) : Option St :=
  if s.patches.length < 65536 then
    some { code := restore orig s.code s.patches, patches := [],
           values := List.replicate 128 blank ++ s.values.take s.vci, vci := s.vci }
  else none

/-- `Overlay(Controller*)` (overlay.cpp:108-113); `code` is the code after `patch_tpl_args`. -/
def fresh (code : List Word) : St := ⟨code, [], List.replicate 128 blank, 0⟩

inductive Op
  | patch (i : Nat) (w : Word)
  | push (w : Word)
  | write (i : Nat) (w : Word)
  | unpatch (k : Nat)
  | rollback
  | commit

def step (orig : List Word) (s : St) : Op → Option St
  | .patch i w => patchCode s i w
  | .push w => some (pushValue s w)
  | .write i w => some (writeValue s i w)
  | .unpatch k => unpatch orig s k
  | .rollback => rollback orig s
  | .commit => some (commit s)

def run (orig : List Word) : St → List Op → Option St
  | s, [] => some s
  | s, o :: os => match step orig s o with
    | none => none
    | some s' => run orig s' os

end Verif.Overlay
