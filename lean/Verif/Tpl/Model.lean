import Verif.Ctx.Model
/-!
# Template arguments

Transcription of `InputLessPGMOverlay::patch_tpl_args` and `patch_tpl_code`
(`/repo/r_exec/pgm_overlay.cpp:170-206`).

The code of the program, a copy of which is patched, and that of its instance are read as in `Verif.Ctx`;
`none` is a read outside the code (or recursion beyond the bound).
-/
namespace Verif.Tpl
open Verif.Atom Verif.Ctx

abbrev Code := Nat → Option Word

def put (c : Code) (i : Nat) (w : Word) : Code := fun j => if j = i then some w else c j

/-- The loop of `patch_tpl_code` (pgm_overlay.cpp:187-201), from member `j` on, `n` members; `rec` is the recursive call. -/
def members (rec : Code → Nat → Nat → Option Code) (inst : Code) (p q : Nat) : (j n : Nat) → Code → Option Code
  | _, 0, code => some code
  | j, n + 1, code =>
    match code (p + j) with
    | none => none
    | some w =>
      if getDescriptor w = 0x82 then members rec inst p q (j + 1) n (put code (p + j) (ipgmPointer (BitVec.ofNat 16 (q + j))))
      else if getDescriptor w = 0x83 then some code
      else if getDescriptor w = 0x84 then
        match inst (q + j) with
        | none => none
        | some x => match rec code (asIndex w).toNat (asIndex x).toNat with
          | none => none
          | some code => members rec inst p q (j + 1) n code
      else members rec inst p q (j + 1) n code

/-- `patch_tpl_code` (pgm_overlay.cpp:184-202). -/
def patchCode (inst : Code) : Nat → Code → Nat → Nat → Option Code
  | 0, _, _, _ => none
  | n + 1, code, p, q =>
    match code p with
    | none => none
    | some h => members (patchCode inst n) inst p q 1 (getAtomCount h).toNat code

/-- The loop of `patch_tpl_args` (pgm_overlay.cpp:174-181): `s` is the index of the set of patterns, `t` of the set of
arguments. -/
def args (inst : Code) (N s t : Nat) : (i n : Nat) → Code → Option Code
  | _, 0, code => some code
  | i, n + 1, code =>
    match code (s + i), inst (t + i) with
    | some w, some a =>
      let p := (asIndex w).toNat
      match patchCode inst N code p (asIndex a).toNat with
      | none => none
      | some code => args inst N s t (i + 1) n (put code (p + 1) (ipgmPointer (BitVec.ofNat 16 (t + i))))
    | _, _ => none

/-- `patch_tpl_args` (pgm_overlay.cpp:170-182); PGM_TPL_ARGS is 1, IPGM_ARGS is 2. -/
def patch (inst : Code) (N : Nat) (code : Code) : Option Code :=
  match code 1, inst 2 with
  | some a, some b =>
    let s := (asIndex a).toNat
    match code s with
    | none => none
    | some h => args inst N s (asIndex b).toNat 1 (getAtomCount h).toNat code
  | _, _ => none

/-- The program as it is run. -/
def run (m : Mem) (N : Nat) : Option Mem := (patch (m.objs m.ipgm).code N m.stem).map fun c => { m with stem := c }

end Verif.Tpl
