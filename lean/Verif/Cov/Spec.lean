import Verif.Cov.Model
/-!
# Who gets the contents of a group (C170, C171)
-/
namespace Verif.Cov
open Verif.F32 Verif.ViewCtl

/-- Groups that get to see, with content visibility, what is in a group. -/
inductive Reach (N : Net) (g : Nat) : Nat → Prop
  | refl : Reach N g g
  | step {x y} : Reach N g x → y ∈ N.sees x → Reach N g y

/-- C170: injecting a new object into a group ends, whichever groups see each other; the object then has one view in each of
the groups that see the group, or see one of these, and so on, and no other; each view is a copy of one in a group it sees; each
of these groups is told once for each such group that it sees, so that a view gets as many requests to change as it has other
sources. -/
def C170_full : Prop :=
  ∀ (N : Net) (U : List Nat), (∀ x ∈ U, ∀ y ∈ N.sees x, y ∈ U) →
    ∀ g ∈ U, ∀ s, ∃ st, (∃ n, ∀ m ≥ n, inject N m g s ⟨[(g, s)], []⟩ = some st) ∧
      st.groups.Nodup ∧ (∀ h, h ∈ st.groups ↔ Reach N g h) ∧ st.views.head? = some (g, s) ∧
      (∀ h v, (h, v) ∈ st.views.tail ++ st.sets → ∃ p u, (p, u) ∈ st.views ∧ h ∈ N.sees p ∧ v = N.morph p h u) ∧
      ∀ h, (st.views.tail ++ st.sets).countP (fun e => e.1 = h) = (st.groups.map fun p => (N.sees p).count h).sum

/-- C171: at an update, every group that sees the group with content visibility gets a view of every object or marker that has become
salient, unless it has one; no view is lost, and nothing happens to other objects; new views are in groups that see the group or
one of these, and so on, and are copies of the view or of others. -/
def C171_full : Prop :=
  ∀ (N : Net) (U : List Nat), (∀ x ∈ U, ∀ y ∈ N.sees x, y ∈ U) →
    ∀ g ∈ U, ∀ (vs : List Nsv) (σ : Nat → St), (∀ o, (σ o).groups.Nodup) →
      ∃ σ', (∃ n, ∀ m ≥ n, cov N m g vs (N.sees g) σ = some σ') ∧
        (∀ o, (σ' o).groups.Nodup) ∧ (∀ o, ∃ vs, (σ' o).views = (σ o).views ++ vs) ∧
        (∀ v ∈ vs, v.notification = false → v.sort = .object ∨ v.sort = .marker → ∀ h ∈ N.sees g, h ∈ (σ' v.obj).groups) ∧
        (∀ o, (∀ v ∈ vs, v.obj = o → v.notification = true ∨ (v.sort ≠ .object ∧ v.sort ≠ .marker)) → σ' o = σ o) ∧
        (∀ o h, h ∈ (σ' o).groups → h ∉ (σ o).groups → Reach N g h) ∧
        ∀ o h x, (h, x) ∈ (σ' o).views → h ∉ (σ o).groups →
          ∃ p u, h ∈ N.sees p ∧ x = N.morph p h u ∧ ((p, u) ∈ (σ' o).views ∨ p = g ∧ ∃ v ∈ vs, v.obj = o ∧ u = v.sln)

end Verif.Cov
