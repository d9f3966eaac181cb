import Verif.Promote.Model
/-!
# What should be assumed in a simulation
-/
namespace Verif.Promote

/-- The step is the arrival of a prediction of the simulation `s`, itself no assumption, at an overlay of no
simulation or of this one. -/
def Arrives (e : Step) (s : Nat) : Prop := e.p.sims = [s] ∧ e.p.promoted = false ∧ (e.o.sims = [] ∨ e.o.sims = [s])

/-- It is for a time after that of the overlay, for the first time. -/
def Later (e : Step) (s : Nat) : Prop :=
  e.p.f.after < e.p.f.before ∧ (∃ b, e.o.fwdBefore = some b ∧ b ≤ e.p.f.after) ∧ s ∉ e.o.done

/-- `f` is about the same thing as `g`, at a common time, or makes it impossible during all of its time. -/
def Tells (R : Rel) (f g : Fact) : Prop :=
  (R.same f.obj g.obj = true ∧ f.after < g.before ∧ g.after < f.before) ∨
  (R.same f.obj g.obj = false ∧ f.pos = true ∧ f.after ≤ g.after ∧ g.before ≤ f.before ∧ R.counter f.obj g.obj = true)

/-- `f` and `g` cannot both be. -/
def Against (R : Rel) (f g : Fact) : Prop :=
  (R.same f.obj g.obj = true ∧ f.pos ≠ g.pos ∧ f.after < g.before ∧ g.after < f.before) ∨
  (R.same f.obj g.obj = false ∧ f.pos = true ∧ g.pos = true ∧ f.after ≤ g.after ∧ g.before ≤ f.before ∧ R.counter f.obj g.obj = true)

/-- `f` is about what `g` is about, at whatever time. -/
def Speaks (R : Rel) (f g : Fact) : Prop :=
  R.same f.obj g.obj = true ∨ (f.pos = true ∧ g.pos = true ∧ R.counter f.obj g.obj = true)

/-- What is assumed of a saved input: the same, at the time of the prediction. -/
def AtTime (p : In) (s : Saved) (f : Fact) : Prop :=
  f.obj = s.f.obj ∧ f.pos = s.f.pos ∧ f.cfd = s.f.cfd ∧ f.after = p.f.after ∧ f.before = p.f.before

/-- C157 for the step `e` after the history `es`: without what is said of earlier predictions, of |facts and of
validities. -/
structure C157Core (R : Rel) (thr : Rat) (es : List Step) (e : Step) : Prop where
  /-- something is assumed only at a later prediction, of a saved input that is no instance, for the time of the
  prediction, in its simulation -/
  form : ∀ m ∈ outs R thr es e, ∃ s, Arrives e s ∧ Later e s ∧ m.sims = [s] ∧ ∃ x ∈ e.o.saved, x.id = m.orig ∧ x.icst = false ∧ AtTime e.p x m.f
  /-- not against the prediction itself -/
  present : ∀ m ∈ outs R thr es e, ¬ Against R e.p.f m.f
  /-- while an assumption of a saved input stands, no other one is made of it -/
  once : ∀ es1 e1 es2, es = es1 ++ e1 :: es2 → ∀ m1 ∈ outs R thr es1 e1, ∀ m ∈ outs R thr es e, m1.orig = m.orig → m1.sims = m.sims →
    m1.val ∈ (after R thr (es ++ [e])).dead
  /-- the assumptions of a step are of different inputs -/
  apart : ((outs R thr es e).map (·.orig)).Nodup
  /-- an assumption has a validity of its own, which is invalidated once a prediction of the simulation tells of it,
  and only then -/
  own : ∀ m ∈ outs R thr es e, m.val ∈ m.vals ∧ ∀ v ∈ e.p.vals, v ∈ m.vals
  /-- it is injected with the confidence of the prediction as its saliency -/
  salient : ∀ m ∈ outs R thr es e, m.sal = e.p.cfd
  withdrawn : ∀ m ∈ outs R thr es e, ∀ fs, m.val ∈ (after R thr (es ++ e :: fs)).dead ↔ ∃ f ∈ fs, ∃ s, m.sims = [s] ∧ Arrives f s ∧ Tells R f.p.f m.f

/-- C157 for the step `e` after the history `es`. -/
structure C157At (R : Rel) (thr : Rat) (es : List Step) (e : Step) : Prop extends C157Core R thr es e where
  /-- not against what has been predicted in the simulation -/
  earlier : ∀ m ∈ outs R thr es e, ∀ s, m.sims = [s] → ∀ f ∈ es, Arrives f s → ¬ Against R f.p.f m.f
  /-- what no prediction of the simulation speaks of is assumed -/
  complete : ∀ s, Arrives e s → Later e s → thr < e.p.cfd → ∀ x ∈ e.o.saved, x.icst = false →
    (∀ f ∈ es ++ [e], Arrives f s → ¬ Speaks R f.p.f x.f) →
    (∃ m ∈ outs R thr es e, m.orig = x.id) ∨
      ∃ es1 e1 es2, es = es1 ++ e1 :: es2 ∧ ∃ m1 ∈ outs R thr es1 e1, m1.orig = x.id ∧ m1.sims = [s] ∧ m1.val ∉ (after R thr (es ++ [e])).dead
  /-- it stands no longer than what it was assumed from -/
  rests : ∀ m ∈ outs R thr es e, ∃ x ∈ e.o.saved, x.id = m.orig ∧ ∀ v ∈ x.vals, v ∈ m.vals

/-- Matching and being impossible together do not depend on the order. -/
structure Sym (R : Rel) : Prop where
  same : ∀ a b, R.same a b = R.same b a
  counter : ∀ a b, R.counter a b = R.counter b a

/-- C157: in a simulation what is the case is assumed to go on until a prediction tells otherwise. -/
def C157_full : Prop := ∀ R thr es e, Sym R → C157At R thr es e

end Verif.Promote
