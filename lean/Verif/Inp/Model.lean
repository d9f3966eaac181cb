import Verif.Ctx.Model
/-!
# Variables of the patterns of programs

Transcription of `PGMOverlay::patch_input_code` and `dereference_in_ptr`
(`/repo/r_exec/pgm_overlay.cpp:597-664`), called by `__match` (pgm_overlay.cpp:757-762) once an input has matched the
skeleton of a pattern.

The code of the overlay and of the objects is read as in `Verif.Ctx`; `none` is a read outside the code, the use of a null
pointer, or recursion beyond the bound. The list of the indices that have been patched is the subject of C39.
-/
namespace Verif.Inp
open Verif.Atom hiding Val
open Verif.Ctx

abbrev Code := Nat → Option Word

def put (c : Code) (i : Nat) (w : Word) : Code := fun j => if j = i then some w else c j

/-- The atom written for a part of an input (pgm_overlay.cpp:617-621, 632-635, 642-645): a pointer into the input, or, if the
part is of an object that the input refers to, a pointer that goes by the place `r` in the code where there is a pointer to
the reference. Indices of inputs and places are bytes (atom.inline.cpp:155-163). -/
def ptr (par : Option Nat) (a k : Nat) : Word :=
  match par with
  | none => inObjPointer (BitVec.ofNat 8 a) (BitVec.ofNat 16 k)
  | some r => dInObjPointer (BitVec.ofNat 8 r) (BitVec.ofNat 16 k)

/-- `dereference_in_ptr` (pgm_overlay.cpp:597-609): the object that a pointer written by `ptr` points into. -/
def derefIn (m : Mem) (code : Code) : Nat → Word → Option Nat
  | 0, _ => none
  | n + 1, w =>
    if getDescriptor w = 0x88 then m.inputs[(asInputIndex w).toNat]?
    else if getDescriptor w = 0x8C then
      match code (asInputIndex w).toNat with
      | none => none
      | some x =>
        match derefIn m code n x with
        | none => none
        | some o =>
          match (m.objs o).code (asIndex x).toNat with
          | none => none
          | some y => (m.objs o).refs[(asIndex y).toNat]?
    else none

/-- The word of the input beside a member of the pattern: `dereference_in_ptr(head)->code(input_code_index + j)`
(pgm_overlay.cpp:648). -/
def beside (m : Mem) (N : Nat) (code : Code) (head : Word) (k : Nat) : Option Word :=
  match derefIn m code N head with
  | none => none
  | some o => (m.objs o).code k

/-- The loop over the members of a structure (pgm_overlay.cpp:625-663), from member `j` on, `n` members; `rec` is the
recursive call. -/
def members (m : Mem) (N : Nat) (rec : Code → Nat → Nat → Option Nat → Option Code) (head : Word) (p a q : Nat) (par : Option Nat) :
    (j n : Nat) → Code → Option Code
  | _, 0, code => some code
  | j, n + 1, code =>
    match code (p + j) with
    | none => none
    | some w =>
      if getDescriptor w = 0x83 then some code
      else if getDescriptor w = 0x82 then members m N rec head p a q par (j + 1) n (put code (p + j) (ptr par a (q + j)))
      else if getDescriptor w = 0x84 then
        let code := put code (p + j) (ptr par a (q + j))
        match beside m N code head (q + j) with
        | none => none
        | some x =>
          if getDescriptor x = 0x84 then
            match rec code (asIndex w).toNat (asIndex x).toNat par with
            | none => none
            | some code => members m N rec head p a q par (j + 1) n code
          else if getDescriptor x = 0x85 then
            match rec code (asIndex w).toNat 0 (some (p + j)) with
            | none => none
            | some code => members m N rec head p a q par (j + 1) n code
          else members m N rec head p a q par (j + 1) n code
      else members m N rec head p a q par (j + 1) n code

/-- `patch_input_code` (pgm_overlay.cpp:612-664): the structure at `p` of the code has been matched with that at `q` of the
input `a`, or of an object reached by the place `par`. -/
def patchIn (m : Mem) (N a : Nat) : Nat → Code → Nat → Nat → Option Nat → Option Code
  | 0, _, _, _, _ => none
  | n + 1, code, p, q, par =>
    match code p with
    | none => none
    | some h => members m N (patchIn m N a n) (ptr par a q) p a q par 1 (getAtomCount h).toNat (put code p (ptr par a q))

/-- What `__match` begins with (pgm_overlay.cpp:757-760): the input has been pushed on the list of inputs; `p` is the index of
the skeleton. -/
def run (m : Mem) (N p : Nat) : Option Mem :=
  (patchIn m N (m.inputs.length - 1) N m.stem p 0 none).map fun c => { m with stem := c }

end Verif.Inp
