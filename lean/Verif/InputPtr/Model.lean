import Verif.Atom.Model
/-!
# Pointers to inputs in the code of a program

`PGMOverlay::patch_input_code` replaces the words of a pattern by pointers to the input that is being
matched; `dereference_in_ptr` reads them. `none` is undefined behaviour or recursion without end.
-/
namespace Verif.InputPtr
open Verif.Atom

/-- An object: its code and the objects it refers to, by number. -/
structure Obj where
  code : List Word
  refs : List Nat

/-- All objects, and those that are the inputs of the overlay (`input_views_`). -/
structure Heap where
  obj : Nat → Obj
  inputs : List Nat

/-- r_exec/pgm_overlay.cpp:594-609 `dereference_in_ptr`; the null pointer of the default case counts as
undefined, since every caller dereferences the result. -/
def deref (H : Heap) (code : List Word) : Nat → Word → Option Nat
  | 0, _ => none
  | f + 1, a =>
    if getDescriptor a = 0x88 then H.inputs[(asInputIndex a).toNat]?
    else if getDescriptor a = 0x8C then
      (code[(asRelativeIndex a).toNat]?).bind fun p =>
      (deref H code f p).bind fun parent =>
      ((H.obj parent).code[(asIndex p).toNat]?).bind fun x =>
      (H.obj parent).refs[(asIndex x).toNat]?
    else none

/-- The code being patched. `log` records for each word written the object and the position in it that
the word was made for; the program does not keep it. -/
structure St where
  code : List Word
  log : List (Nat × Nat × Nat)
deriving DecidableEq

def St.write (st : St) (k : Nat) (w : Word) (O N : Nat) : Option St :=
  if k < st.code.length then some ⟨st.code.set k w, st.log ++ [(k, O, N)]⟩ else none

/-- r_exec/pgm_overlay.cpp:618-622, 634-637, 644-647: the pointer that is written. The `int16` parent
index and the `uint16` input index are passed as `uint8`, the position as `uint16`
(r_code/atom.inline.cpp:155-163). -/
def mkPtr (parent : Option Nat) (inp N : Nat) : Word :=
  match parent with
  | none => inObjPointer (BitVec.ofNat 8 inp) (BitVec.ofNat 16 N)
  | some r => dInObjPointer (BitVec.ofNat 8 r) (BitVec.ofNat 16 N)

/-- The object meant by the reference at position `N` of object `O`. -/
def meant (H : Heap) (O N : Nat) : Nat :=
  (((H.obj O).code[N]?).bind fun x => (H.obj O).refs[(asIndex x).toNat]?).getD 0

/-- One member of a structure: the body of the loop r_exec/pgm_overlay.cpp:626-667. `acc.2` says that a
tail wildcard was found, after which the function returns. -/
def member (H : Heap) (F : Nat) (rec : St → Nat → Nat → Option Nat → Nat → Option St)
    (P inp N : Nat) (parent : Option Nat) (O : Nat) (acc : St × Bool) (j : Nat) :
    Option (St × Bool) :=
  if acc.2 then some acc
  else
    match acc.1.code[P + j]? with
    | none => none
    | some w =>
      if getDescriptor w = 0x83 then some (acc.1, true)
      else if getDescriptor w = 0x82 then
        (acc.1.write (P + j) (mkPtr parent inp (N + j)) O (N + j)).map fun st => (st, false)
      else if getDescriptor w = 0x84 then
        (acc.1.write (P + j) (mkPtr parent inp (N + j)) O (N + j)).bind fun st =>
        (deref H st.code F (mkPtr parent inp N)).bind fun A =>
        ((H.obj A).code[N + j]?).bind fun x =>
        if getDescriptor x = 0x84 then
          (rec st (asIndex w).toNat (asIndex x).toNat parent O).map fun st => (st, false)
        else if getDescriptor x = 0x85 then
          (rec st (asIndex w).toNat 0 (some (P + j)) (meant H O (N + j))).map fun st => (st, false)
        else some (st, false)
      else some (acc.1, false)

/-- r_exec/pgm_overlay.cpp:611-668 `patch_input_code(P, inp, N, parent)`, with `parent` `none` for -1.
`O` is the object meant. `f` bounds the depth of the recursion, `F` that of reading pointers. -/
def patch (H : Heap) (F : Nat) : Nat → St → (P inp N : Nat) → Option Nat → Nat → Option St
  | 0, _, _, _, _, _, _ => none
  | f + 1, st, P, inp, N, parent, O =>
    match st.code[P]? with
    | none => none
    | some w0 =>
      (st.write P (mkPtr parent inp N) O N).bind fun st =>
      (((List.range (getAtomCount w0).toNat).foldlM (fun acc j =>
        member H F (fun st P' N' parent' O' => patch H F f st P' inp N' parent' O')
          P inp N parent O acc (j + 1)) (st, false)).map Prod.fst)

end Verif.InputPtr
