import Verif.Commit.Model
import Verif.Abduce.Spec
/-!
# What should be committed to
-/
namespace Verif.Commit
open Verif.F32 (Arith)

/-- Among the predictions `h` that came, `x` is of the outcome of a goal, in simulation `s` and no other; `s` has the
controller `me` as root. -/
def Seen (W : Nat → SimD) (me : Nat) (h : List Outcome) (x : Outcome) (s : Nat) : Prop :=
  x ∈ h ∧ x.goal ≠ none ∧ x.sims = [s] ∧ (W s).root = me

/-- Outcomes belong to one simulation each. -/
def Single (h : List Outcome) : Prop := ∀ x ∈ h, x.goal ≠ none → ∃ s, x.sims = [s]

/-- Neither the prediction nor the simulation has been withdrawn. -/
def Live (inv : Nat → Bool) (x : Outcome) (s : Nat) : Prop := x.dead = false ∧ inv s = false

/-- A goal with target `t` is stronger than one with target `u`. -/
def Stronger (A : Arith) (now : Int) (t u : Tgt) : Prop := (t.strength A now).gt (u.strength A now) = true

/-- The simulation makes a goal fail that is stronger than the one monitored. -/
def Harm (A : Arith) (now : Int) (mine : Tgt) (W : Nat → SimD) (me : Nat) (h : List Outcome) (inv : Nat → Bool) (s : Nat) : Prop :=
  ∃ x t, Seen W me h x s ∧ x.success = false ∧ Live inv x s ∧ x.goal = some t ∧ Stronger A now t mine

/-- The simulation makes a goal succeed. -/
def Helps (W : Nat → SimD) (me : Nat) (h : List Outcome) (inv : Nat → Bool) (x : Outcome) (s : Nat) : Prop :=
  Seen W me h x s ∧ x.success = true ∧ Live inv x s

/-- The call commits to the simulation. -/
def For (W : Nat → SimD) (mine : Tgt) (c : Call) : Prop :=
  c.ctrl = (W c.sim).ctrl ∧ c.sup = (W c.sim).sup ∧ c.opposite = (W c.sim).opposite ∧ c.cfd = mine.cfd

/-- C124: when the simulation is over, everything that was simulated is stopped and nothing else. If something that must
be done makes a stronger goal fail, nothing is committed to. Otherwise what must be done is, and of what may be done the
best, among what is still valid and makes no stronger goal fail; each once. -/
structure C124At (A : Arith) (now : Int) (mine : Tgt) (W : Nat → SimD) (me : Nat) (h : List Outcome) (inv inv' : Nat → Bool)
    (calls : List Call) : Prop where
  caves : (∃ s, (W s).mode = .mandatory ∧ Harm A now mine W me h inv s) → calls = []
  live : ∀ c ∈ calls, For W mine c ∧ ¬ Harm A now mine W me h inv c.sim ∧ ∃ x, Helps W me h inv x c.sim ∧ x.id = c.fact
  may : ¬ (∃ s, (W s).mode = .mandatory ∧ Harm A now mine W me h inv s) →
    ∀ x s, Helps W me h inv x s → (W s).mode = .optional → ¬ Harm A now mine W me h inv s →
    ∃ c ∈ calls, (W c.sim).mode = .optional ∧ ((W s).rank A now).gt ((W c.sim).rank A now) = false
  one : (calls.filter (fun c => (W c.sim).mode == .optional)).length ≤ 1
  must : ¬ (∃ s, (W s).mode = .mandatory ∧ Harm A now mine W me h inv s) →
    ∀ x s, Helps W me h inv x s → (W s).mode = .mandatory → ∃ c ∈ calls, c.sim = s
  once : (calls.map Call.sim).Nodup
  stopped : ∀ x s, Seen W me h x s → (W s).mode ≠ .root → inv' s = true
  others : ∀ s, (∀ x, ¬ Seen W me h x s) → inv' s = inv s

def C124_full : Prop :=
  ∀ A now mine W me h inv, Single h →
    C124At A now mine W me h inv (commit A now W mine (gather W me h) inv).1 (commit A now W mine (gather W me h) inv).2

/-- C125: committing to a solution is pursuing its goal through the model it is a solution of, without simulation. -/
def C125_full : Prop :=
  ∀ A c now rdy K fresh B a sa g id m opposite mine s, Abduce.Concerns m opposite → g.sim = some s →
    0 ≤ c.minThz → commitTo A c now rdy K fresh B a sa g id m opposite mine =
      some (Abduce.reduceGoal A c now rdy K fresh B a sa
        { g with id := id, sim := some { mode := .root, thz := 0, sup := s.sup, root := c.id } } m)

/-- C126: the monitor of a simulated goal stops the simulations that make a stronger goal fail, and no other. -/
def C126_full : Prop :=
  ∀ A now mine W me h inv s, Single h → ((subCommit A now mine (gather W me h) inv) s = true ↔
    inv s = true ∨ ((W s).mode ≠ .root ∧ ∃ x t, Seen W me h x s ∧ x.success = false ∧ x.goal = some t ∧ Stronger A now t mine))

end Verif.Commit
