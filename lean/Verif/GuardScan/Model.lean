import Verif.Atom.Model
/-!
# Can the backward guards be evaluated?

Transcription of `HLPOverlay::scan_bwd_guards`, `scan_location`, `scan_variable`
(`/repo/r_exec/hlp_overlay.cpp:226-297`), on the words of the overlay's code.

The recursion has a fuel argument; `none` means that the call has not returned within that depth.
Simplification: the code is a function from positions to words (reading outside the array, which is
undefined behaviour, is not represented).  `bound v` is `bindings_->scan_variable(v)`: the variable
has a value.
-/
namespace Verif.GuardScan
open Verif.Atom

abbrev Code := Nat → Word

def ix (w : Word) : Nat := (asIndex w).toNat
def count (w : Word) : Nat := (getAtomCount w).toNat
def isIPtr (w : Word) : Bool := getDescriptor w == 0x84
def isAssign (w : Word) : Bool := getDescriptor w == 0x8D
def isVar (w : Word) : Bool := getDescriptor w == 0x86
def isOp (w : Word) : Bool := getDescriptor w == 0xC5
/-- The compounds other than operators whose members are evaluated (hlp_context.cpp:176-194): objects,
markers, instantiated programs, composite states, models, groups, sets. -/
def isSet (w : Word) : Bool :=
  [0xC3, 0xC4, 0xC9, 0xCA, 0xCB, 0xCC, 0xCD, 0xCE, 0xC8, 0xC1, 0xC2].contains (getDescriptor w)
/-- The variable of an assignment guard. -/
def target (w : Word) : Nat := (asAssignmentIndex w).toNat

/-- Positions of the guards: `guard_set_index + 1 … guard_set_index + guard_count`. -/
def guards (c : Code) (s : Nat) : List Nat := (List.range (count (c s))).map fun k => s + 1 + k

/-- A loop returning false at the first false. -/
def andAll (f : Nat → Option Bool) : List Nat → Option Bool
  | [] => some true
  | j :: js => match f j with
    | none => none
    | some false => some false
    | some true => andAll f js

/-- The guard that `scan_variable` stops at: the first assignment to the variable (lines 278-294). -/
def assigner (c : Code) (s v : Nat) : Option Nat :=
  (guards c s).find? fun g => isAssign (c g) && target (c g) == v

/-- `scan_location` (hlp_overlay.cpp:249-274), with `scan_variable` (276-297) in the `VL_PTR` case. -/
def scanLoc (c : Code) (s : Nat) (bound : Nat → Bool) : Nat → Nat → Nat → Option Bool
  | 0, _, _ => none
  | fuel + 1, i, parent =>
    let a := c i
    if isIPtr a || isAssign a then scanLoc c s bound fuel (ix a) parent
    else if isVar a then
      if bound (ix a) then some true
      else match assigner c s (ix a) with
        | none => some false
        | some g => if g = parent then some false else scanLoc c s bound fuel (ix (c g)) g
    else if isOp a then
      andAll (fun j => scanLoc c s bound fuel (i + 1 + j) parent) (List.range (count a))
    else some true

/-- One iteration of `scan_bwd_guards` (232-244). -/
def scanGuard (c : Code) (s : Nat) (bound : Nat → Bool) (fuel g : Nat) : Option Bool :=
  let a := c g
  if isIPtr a then scanLoc c s bound fuel (ix a) g
  else if isAssign a then
    match scanLoc c s bound fuel (ix a) g with
    | none => none
    | some b => some (b || bound (target a))
  else some true

/-- `scan_bwd_guards` (226-247); `s` is the position of the guard set. -/
def scan (c : Code) (s : Nat) (bound : Nat → Bool) (fuel : Nat) : Option Bool :=
  andAll (scanGuard c s bound fuel) (guards c s)

end Verif.GuardScan
