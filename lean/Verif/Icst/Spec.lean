import Verif.Icst.Model
/-!
# What the instance of a composite state should be
-/
namespace Verif.Icst

/-- The confidence of an input: that of what is predicted, for a prediction. -/
def worth (i : Input) : Rat := match i.pred with | none => i.cfd | some p => p.cfd

/-- The simulations an input belongs to. -/
def simsOf (i : Input) : List Nat := match i.pred with | none => [] | some p => p.sims

/-- `x` is the least of the confidences. -/
def Least (is : List Input) (x : Rat) : Prop := (∃ i ∈ is, worth i = x) ∧ ∀ i ∈ is, x ≤ worth i

/-- C156 for the inputs `is`: without what is said of confidence and life. -/
structure C156Core (S : Sims) (c : Ctl) (is : List Input) (m : Made) : Prop where
  /-- simulated if an input is; a prediction if an input is; else actual -/
  simulated : m.kind = .simulated ↔ ∃ i ∈ is, simsOf i ≠ []
  predicted : m.kind = .predicted ↔ (∃ i ∈ is, i.pred ≠ none) ∧ ∀ i ∈ is, simsOf i = []
  /-- it belongs to the simulations of its inputs, one for each root -/
  within : ∀ s ∈ m.sims, ∃ i ∈ is, s ∈ simsOf i
  roots : ∀ i ∈ is, ∀ s ∈ simsOf i, ∃ s' ∈ m.sims, S.root s' = S.root s
  /-- it stands as long as all that it was made from -/
  stands : ∀ D : Dead, D.made false m = true ↔ ∃ i ∈ is, D.input i = true
  /-- it is shown to the group if it is certain enough there, and a fact also to the other groups -/
  shown : ∀ x, Least is x → ((∃ v ∈ m.shown, v.grp = c.primary.id) ↔ c.primary.thr < x) ∧
    (m.kind = .actual → ((∃ v ∈ m.shown, v.grp = c.secondary.id) ↔ c.secondary.thr < x) ∧
      ∀ o ∈ c.outs, (∃ v ∈ m.shown, v.grp = o) ↔ c.primary.thr < x) ∧
    (m.kind ≠ .actual → ∀ v ∈ m.shown, v.grp = c.primary.id)

/-- C156: at one completion. -/
structure C156At (S : Sims) (c : Ctl) (now before : Int) (is : List Input) (m : Made) : Prop extends C156Core S c is m where
  /-- it is as certain as the least certain of its inputs -/
  cfd : Least is m.cfd
  /-- it lives in the group until the end of the state -/
  life : m.kind ≠ .simulated → ∀ v ∈ m.shown, v.grp = c.primary.id → v.res = Lifetime.viewRes c.ref c.base c.primary.upr now (ttl now before)
  /-- a prediction rests on the predictions and the validities it was made from -/
  grounds : m.kind ≠ .actual → ∀ i ∈ is, ∀ p, i.pred = some p → (p.sims = [] → i.id ∈ m.grounds) ∧ ∀ v ∈ p.vals, v ∈ m.vals

/-- Groups are different, and confidences at most 1; simulations have a root simulation, with the same root. -/
structure Sane (S : Sims) (c : Ctl) (is : List Input) : Prop where
  groups : c.primary.id ≠ c.secondary.id ∧ c.primary.id ∉ c.outs ∧ c.secondary.id ∉ c.outs
  cfd : ∀ i ∈ is, worth i ≤ 1
  ids : (is.map (·.id)).Nodup
  roots : ∀ i ∈ is, ∀ s ∈ simsOf i, ∃ r, S.top s = some r ∧ S.root r = S.root s

/-- C156: the instance of a composite state is worth what its members are. -/
def C156_full : Prop :=
  ∀ S c now before is last, Sane S c (is ++ [last]) →
    ∃ m, complete S c now before is last = some m ∧ C156At S c now before (is ++ [last]) m

end Verif.Icst
