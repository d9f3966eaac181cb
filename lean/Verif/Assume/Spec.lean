import Verif.Assume.Model
import Verif.Abduce.Spec
/-!
# What should be assumed
-/
namespace Verif.Assume
open Verif.F32 (Arith)
open Verif.Abduce (Bound Target Says)
open Verif.Requirements (Status)

/-- The model may assume: it is strong, and neither a requirement nor a reuse of a model nor a command. -/
def Assumes (m : Mdl) : Prop := m.strength ≠ 0 ∧ m.isReq = false ∧ m.isReuse = false ∧ m.isCmd = false

/-- The input is unexplained: an actual fact that the model does not start from, that was not predicted and that no goal
of the model was about. -/
def Unexplained (x : In) : Prop := x.goal = false ∧ x.pred = false ∧ x.hit = false ∧ x.foretold = false ∧ x.wanted = false

/-- What the model makes of it: its left-hand side, or the contrary if the input is the contrary of the right-hand side. -/
def Explains (A : Arith) (m : Mdl) (x : In) (t : Target) : Prop :=
  (x.req = .weakEnabled ∨ x.req = .noRequirement) ∧ x.timed = true ∧ ∃ b opposite, x.lhs = some b ∧
    ((x.meets = .rhs ∧ opposite = false) ∨ (x.meets = .notRhs ∧ opposite = true)) ∧ Says A b opposite (A.mul m.rate x.cfd) t

/-- The assumptions among the effects. -/
def assumed (es : List Eff) : List (Nat × Target × Rat × Int) :=
  es.filterMap (fun e => match e with | .assume k t sln res => some (k, t, sln, res) | _ => none)

/-- The time that is left until `b`. -/
def Left (now b ttl : Int) : Prop := (now ≤ b → ttl = b - now) ∧ (b ≤ now → ttl = 0)

/-- C130: a strong model assumes its left-hand side to explain an actual fact that is, or contradicts, its right-hand
side, exactly if nothing else explains it, the requirements, timings and guards allow it and the confidence suffices. -/
structure C130At (A : Arith) (m : Mdl) (now : Int) (s s' : State) (x : In) (es : List Eff) : Prop where
  sound : ∀ k t sln res, (k, t, sln, res) ∈ assumed es → Assumes m ∧ Unexplained x ∧ m.thr < A.mul m.rate x.cfd ∧
    Explains A m x t ∧ sln = A.mul m.rate x.cfd ∧ (∃ ttl, Left now t.before ttl ∧ res = Lifetime.goalRes m.ref m.upr now ttl) ∧
    k = s.made ∧ s'.made = k + 1
  complete : s.orphan = false → s.inv x.obj = false → (∀ k, x.obj ≠ .own k) → Assumes m → Unexplained x →
    m.thr < A.mul m.rate x.cfd → ∀ t, Explains A m x t → ∃ sln res, assumed es = [(s.made, t, sln, res)]
  once : (assumed es).length ≤ 1

def C130_full : Prop :=
  ∀ A m now s x, C130At A m now s (reduce A m now s x).1 x (reduce A m now s x).2

/-- C131: a model takes nothing from what it assumed itself. -/
def C131_full : Prop :=
  ∀ A m es now x k, x.obj = .own k → k < (run A m es).made → (reduce A m now (run A m es) x).2 = []

/-- C132: an actual evidence rates the models behind a prediction, an assumption does not. -/
def C132_full : Prop :=
  (∀ A m now s x k t sln res, (k, t, sln, res) ∈ assumed (reduce A m now s x).2 → rates t.cfd = false) ∧
  (∀ cfd, 0 < cfd → cfd ≤ 1 → rates cfd = true)

end Verif.Assume
