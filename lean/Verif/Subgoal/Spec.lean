import Verif.Subgoal.Model
/-!
# What should become of a goal for a composite state
-/
namespace Verif.Subgoal
open Verif.F32 (Arith)
open Verif.Abduce (Sim Mode)

/-- The goal is to be pursued here. -/
def Asked.ok (a : Asked) : Prop := a.self = true ∧ a.drive = false ∧ a.mine = true ∧ a.requirements = 0 ∧ a.guards = true

/-- The member is missing: it is no axiom; nothing is known about what is wanted of it; and that is not predicted
with more confidence than the goal has. -/
def Missing (K : Known) (g : Goal) (m : Member) : Prop :=
  m.isAxiom = false ∧ K.seen (want (!g.positive) m) = none ∧
    ¬ ∃ e, (K.foreseen (want (!g.positive) m)).find? (fun e => decide (g.cfd < e.2)) = some e ∧ e.1 = true

/-- The members that count, and which belong together: as the goal binds them or, in a simulation, as each of the
overlays does that is not itself simulated, can still match, and agrees with the goal. -/
def Counts (g : Goal) (own : List Member) (os : List Ov) (ms : List Member) : Prop :=
  if g.simulated then ∃ o ∈ os, o.simulated = false ∧ o.live = true ∧ o.bound = some ms else ms = own

/-- The same thing, for the same time. -/
def Same (same : Nat → Nat → Bool) (t u : Target) : Prop :=
  t.positive = u.positive ∧ same t.n u.n = true ∧ t.after = u.after ∧ t.before = u.before

/-- The simulation of the sub-goals: the one the goal belongs to, with the goal as super-goal. -/
structure Below (now : Int) (g : Goal) (s s' : Sim) : Prop where
  root : s'.root = s.root
  thz : s'.thz = s.thz
  sup : s'.sup = g.id
  against : s'.opposite = !g.positive
  first : s.mode = .root → s.thz ≠ 0 → s'.mode = (if g.positive then .optional else .mandatory) ∧ s'.solBefore = now + s.thz
  later : s.mode ≠ .root → s'.mode = s.mode ∧ s'.solBefore = s.solBefore

/-- The goal is to be acted upon, not simulated. -/
def Actual (g : Goal) : Prop := ∀ s, g.sim = some s → s.mode = .root ∧ s.thz = 0

/-- The targets of the sub-goals. -/
def targets (es : List Eff) : List Target := es.filterMap fun e => match e with | .goal t _ _ _ _ _ => some t | .rdx _ _ => none

/-- C155: which sub-goals are made of one goal. -/
structure C155Core (A : Arith) (same : Nat → Nat → Bool) (K : Known) (now : Int) (a : Asked) (g : Goal) (reg : List Target)
    (own : List Member) (os : List Ov) (es : List Eff) : Prop where
  idle : ¬ a.ok → es = []
  /-- a sub-goal for what is missing, unless it is one already -/
  each : a.ok → ∀ ms, Counts g own os ms → (g.positive = true ∨ ∀ m ∈ ms, K.seen (want true m) ≠ some true) →
    ∀ m ∈ ms, Missing K g m → (∃ u ∈ reg, Same same (want (!g.positive) m) u) ∨ ∃ u ∈ targets es, Same same (want (!g.positive) m) u
  /-- and for nothing else, as the goal has it -/
  only : ∀ t actor s' ijt sal res, .goal t actor s' ijt sal res ∈ es →
    (∃ ms, Counts g own os ms ∧ ∃ m ∈ ms, Missing K g m ∧ t = { want (!g.positive) m with cfd := A.store g.cfd }) ∧
      actor = g.actor ∧ ijt = now ∧ sal = g.cfd ∧ ∀ s, g.sim = some s → Below now g s s'
  /-- once -/
  once : (targets es).Pairwise fun t u => ¬ Same same u t
  /-- nothing that is one already -/
  fresh : ∀ t ∈ targets es, ∀ u ∈ reg, ¬ Same same t u

/-- C155: at one goal. -/
structure C155At (A : Arith) (same : Nat → Nat → Bool) (K : Known) (now : Int) (a : Asked) (g : Goal) (reg : List Target)
    (own : List Member) (os : List Ov) (es : List Eff) : Prop extends C155Core A same K now a g reg own os es where
  /-- what is made for a goal that is acted upon is acted upon -/
  actual : Actual g → ∀ t actor s' ijt sal res, .goal t actor s' ijt sal res ∈ es → s'.mode = .root ∧ s'.thz = 0
  /-- and reported -/
  told : Actual g → ∀ t ∈ targets es, .rdx g.id t ∈ es
  /-- a state that is not wanted, and of which a member is known not to hold, is left alone -/
  met : g.positive = false → ∀ ms, Counts g own os ms → (∃ m ∈ ms, K.seen (want true m) = some true) → g.simulated = false → es = []

/-- C155: a goal for a composite state becomes goals for what is missing of it. -/
def C155_full : Prop :=
  ∀ A same K now a g reg own os, (∀ n, same n n = true) → ∃ es reg', reduceGoal A same K now a g (some reg) own os = some (es, some reg') ∧
    C155At A same K now a g reg own os es

end Verif.Subgoal
