import Verif.Keep.Model
/-!
# What red produces (C166)
-/
namespace Verif.Keep
open Verif.Ctx
open Verif.Atom hiding Val

/-- An array of `nv` values. -/
def Ends (v : Nat → Option Word) (nv : Nat) : Prop := ∀ i, (v i).isSome = true ↔ i < nv

/-- The members of a set. -/
def list : List Val → Val
  | [] => .nil
  | v :: vs => .cons v (list vs)

/-- What the productions stand for, each with its input, when they are built; members of sets are atoms or
pointers. -/
def Worth : Mem → Nat → List Step → List Val → Prop
  | _, _, [], vs => vs = []
  | m, nv, s :: ss, vs => ∃ v us, vs = v :: us ∧
      (∃ w, s.stem s.cell = some w ∧ isStructural w = false) ∧
      Den (prepare m nv s) false ⟨.stem, s.cell⟩ v ∧
      ∀ r : Dest × Nat, Ev (fun n => keep (prepare m nv s) n (nv + s.values.length) ⟨.stem, s.cell⟩) r →
        Worth { prepare m nv s with values := r.1.code } r.2 ss us

/-- C166: red makes the set of what the productions stood for, each with its input, in order; the code of the
program may then be patched for other inputs. -/
def C166_full : Prop :=
  ∀ (m : Mem) (nv : Nat) (ss : List Step) (vs : List Val), Ends m.values nv → Worth m nv ss vs →
    ∃ r : Mem × Nat, Ev (fun n => red n m nv ss) r ∧
      ∀ stem, ∃ us, Den { r.1 with stem := stem } false ⟨.val, r.2⟩ (.node none (BitVec.ofNat 32 (0xC1000000 + vs.length)) us) ∧ alike (list vs) us

end Verif.Keep
