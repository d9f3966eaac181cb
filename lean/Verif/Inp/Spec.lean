import Verif.Ctx.Lemmas
import Verif.Inp.Model
/-!
# What is wanted of the variables of a pattern (C162)
-/
namespace Verif.Inp
open Verif.Atom hiding Val
open Verif.Ctx

/-- The last input, the object `o`, is an instance (`w`) of the skeleton (`v`), a structure at `p`, in which each variable
occurs once. -/
structure Matched (m : Mem) (p o : Nat) (v w : Val) : Prop where
  skeleton : ∃ n, m.at ⟨.stem, p⟩ = some (.struct n)
  pattern : Den m false ⟨.stem, p⟩ v
  last : m.inputs[m.inputs.length - 1]? = some o
  input : Den m false ⟨.obj o, 0⟩ w
  fits : inst v w = true
  once : ((holes v w).map (·.1)).Nodup

/-- In the program after the match the skeleton stands for the input, and each variable for the part of the input that it
was matched with (`m₀` is the program before; tail wildcards are no variables). -/
structure Bound (m₀ m : Mem) (p : Nat) (v w : Val) : Prop where
  whole : Den m false ⟨.stem, p⟩ w
  parts : ∀ h ∈ holes v w, (∃ u, m₀.word h.1 = some u ∧ u.toNat / 2 ^ 24 = 0x82) → ∃ x, Den m false h.1 x ∧ same x h.2 = true

/-- C162: once an input has been matched the variables of the pattern stand for the parts of the input. -/
def C162_full : Prop :=
  ∀ m p o v w, Matched m p o v w → ∃ k, ∀ N ≥ k, ∃ m', run m N p = some m' ∧ Bound m m' p v w

end Verif.Inp
