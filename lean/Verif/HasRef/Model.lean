import Verif.Atom.Model
/-!
# The scan for references in guards

`Utils::has_reference`, by which `_Mem::load` (r_exec/mem.cpp:333-357) refuses models and composite states
with references in their guards. `none` is reading beyond the code or recursion without end.
-/
namespace Verif.HasRef
open Verif.Atom

/-- The structures whose members are scanned: C_PTR, SET, OBJECT, S_SET, MARKER, OPERATOR, TIMESTAMP,
DURATION, GROUP (r_code/code_utils.cpp:262-270). -/
def scanned (d : BitVec 8) : Bool :=
  d = 0xC0 || d = 0xC1 || d = 0xC3 || d = 0xC2 || d = 0xC4 || d = 0xC5 || d = 0xC7 || d = 0xD0 || d = 0xC8

/-- r_code/code_utils.cpp:254-281 `Utils::has_reference(code, index)`; `f` bounds the depth of the
recursion. Indices are `uint16`. -/
def scan (code : List Word) : Nat → Nat → Option Bool
  | 0, _ => none
  | f + 1, i =>
    match code[i]? with
    | none => none
    | some w =>
      if getDescriptor w = 0x85 then some true
      else if getDescriptor w = 0x84 then scan code f (asIndex w).toNat
      else if scanned (getDescriptor w) then
        (List.range (getAtomCount w).toNat).foldlM (fun found j =>
          if found then some true else scan code f ((i + (j + 1)) % 65536)) false
      else some false

end Verif.HasRef
