import Verif.Ctx.Copy
/-!
# Keeping the productions of red

Transcription of `IPGMContext::copy_to_value_array`, `copy_structure_to_value_array`,
`copy_member_to_value_array` (`/repo/r_exec/context.cpp:321-414`), and of their use in `match` and `Red`
(context.cpp:553-566, 636-646): for each input that matches, the productions are evaluated and copied to
the values; the result is the set of the copies.

The words and values are those of `Verif.Ctx`. `copyStruct` of `Verif.Ctx` also transcribes
`copy_structure_to_value_array` (context.cpp:332-372), which does the same: the head, the words of timestamps and
durations, the members one by one.

Simplifications: operators have been replaced by their values; mod and set are not described
(`dereference_cptr` is true). The array of values grows when written (resized_vector.h); cells that have
not been written are `none`. Functions take a bound on the depth of recursion. `none` stands for undefined
behaviour, what is not described, and recursion beyond the bound.
-/
namespace Verif.Keep
open Verif.Ctx
open Verif.Atom hiding Val

/-- `copy_member_to_value_array` (context.cpp:374-414): the member at `c` is copied to `w`; structures, to the
extent `e` with a pointer to them if `p`, to `w` otherwise. -/
def member (m : Mem) : Nat → Bool → Ctx → Nat → Dest → Nat → Option (Dest × Nat)
  | 0, _, _, _, _, _ => none
  | n + 1, p, c, w, d, e =>
    (m.word c).bind fun a =>
      match kind a with
      | .iptr k => member m n p ⟨c.sp, k⟩ w d e
      | .codevl k => member m n p ⟨c.sp, k⟩ w d e
      | .value k => some (d.put w (iPointer k), e)
      | .cptr _ => (deref m n c).bind fun q => (m.word q).map fun x => (d.put w x, e)
      | .struct _ => if p then copyStruct m (member m n true) c e (d.put w (iPointer e)) else copyStruct m (member m n true) c w d
      | .raw _ => if p then copyStruct m (member m n true) c e (d.put w (iPointer e)) else copyStruct m (member m n true) c w d
      | .op => none
      | _ => some (d.put w a, e)

/-- `copy_to_value_array` (context.cpp:321-330), for an array with `nv` values: the array, and its length (the cells
up to the extent have been written). -/
def keep (m : Mem) (n nv : Nat) (c : Ctx) : Option (Dest × Nat) :=
  (m.word c).bind fun a =>
    if isStructural a then copyStruct m (member m n false) c nv ⟨m.values, []⟩
    else member m n false c nv ⟨m.values, []⟩ (nv + 1)

/-- A production for an input: the code of the program, patched with the input and evaluated; what evaluating it
added to the values and to the productions; the member of the set of productions. -/
structure Step where
  stem : Nat → Option Word
  values : List Word
  prods : List Nat
  cell : Nat

/-- Values added at the end. -/
def extend (v : Nat → Option Word) (nv : Nat) (ws : List Word) : Nat → Option Word := fun i => if i < nv then v i else ws[i - nv]?

/-- Before the copy. -/
def prepare (m : Mem) (nv : Nat) (s : Step) : Mem :=
  { m with stem := s.stem, values := extend m.values nv s.values, prods := m.prods ++ s.prods }

/-- The copies (context.cpp:555-563): their places. -/
def run (n : Nat) : Mem → Nat → List Step → Option (Mem × Nat × List Nat)
  | m, nv, [] => some (m, nv, [])
  | m, nv, s :: ss =>
    (keep (prepare m nv s) n (nv + s.values.length) ⟨.stem, s.cell⟩).bind fun r =>
      (run n { prepare m nv s with values := r.1.code } r.2 ss).map fun t => (t.1, t.2.1, (nv + s.values.length) :: t.2.2)

/-- The set of all productions (context.cpp:638-645): at the end of the values, `none` if there are none
(context.cpp:646-648 then adds an empty set). -/
def red (n : Nat) (m : Mem) (nv : Nat) (ss : List Step) : Option (Mem × Nat) :=
  (run n m nv ss).map fun t =>
    ({ t.1 with values := extend t.1.values t.2.1 (Atom.set (BitVec.ofNat 8 t.2.2.length) :: t.2.2.map fun (p : Nat) => iPointer p) }, t.2.1)

end Verif.Keep
