import Verif.Ctx.Lemmas
import Verif.Tpl.Model
/-!
# What is wanted of template arguments (C160)
-/
namespace Verif.Tpl
open Verif.Atom hiding Val
open Verif.Ctx

/-- The place of the patterns and of the arguments. -/
structure Layout where
  s : Nat
  n : Nat
  t : Nat
  pat : Nat → Nat

/-- The program has patterns `pat 1 … pat n`, each an object of two members, pointed to by the members of a set, which
do not overlap; the instance has as many arguments. -/
structure Laid (m : Mem) (L : Layout) : Prop where
  set : m.at ⟨.stem, 1⟩ = some (.iptr L.s)
  count : m.at ⟨.stem, L.s⟩ = some (.struct L.n)
  pats : ∀ i, 1 ≤ i → i ≤ L.n → m.at ⟨.stem, L.s + i⟩ = some (.iptr (L.pat i)) ∧ m.at ⟨.stem, L.pat i⟩ = some (.struct 2)
  after : ∀ i, 1 ≤ i → i ≤ L.n → L.s + L.n < L.pat i
  apart : ∀ i j, 1 ≤ i → i ≤ L.n → 1 ≤ j → j ≤ L.n → L.pat i = L.pat j → i = j
  first : 1 < L.s
  args : m.at ⟨.obj m.ipgm, 2⟩ = some (.iptr L.t)
  small : L.t + L.n < 4096

/-- The arguments, and the skeletons of which they are instances. -/
structure Given (m : Mem) (L : Layout) (skel arg : Nat → Val) : Prop where
  pattern : ∀ i, 1 ≤ i → i ≤ L.n → Den m false ⟨.stem, L.pat i + 1⟩ (skel i)
  given : ∀ i, 1 ≤ i → i ≤ L.n → Den m false ⟨.obj m.ipgm, L.t + i⟩ (arg i)
  fits : ∀ i, 1 ≤ i → i ≤ L.n → inst (skel i) (arg i) = true

/-- In the program that is run, what was a template argument is the argument given, and each variable in it is the part
of that argument that it stood for (`m₀` is the program before; tail wildcards are no variables). -/
structure Filled (m₀ m : Mem) (L : Layout) (skel arg : Nat → Val) : Prop where
  whole : ∀ i, 1 ≤ i → i ≤ L.n → Den m false ⟨.stem, L.pat i + 1⟩ (arg i)
  parts : ∀ i, 1 ≤ i → i ≤ L.n → ∀ h ∈ holes (skel i) (arg i), (∃ w, m₀.word h.1 = some w ∧ w.toNat / 2 ^ 24 = 0x82) →
    ∃ v, Den m false h.1 v ∧ same v h.2 = true

/-- C160: the program that is run has the arguments in place of its variables. -/
def C160_full : Prop :=
  ∀ m L skel arg, Laid m L → Given m L skel arg → ∃ k, ∀ N ≥ k, ∃ m', run m N = some m' ∧ Filled m m' L skel arg

end Verif.Tpl
