import Verif.Predict.Model
/-!
# What forward chaining should do
-/
namespace Verif.Predict
open Verif.F32 (Arith)
open Verif.Requirements (Status Acc Res Entry)

/-- The statuses that allow chaining: there is no requirement in force, or a weak one is and is not
overruled. -/
def Allows (a : Acc) : Prop := a.r = .weakEnabled ∨ a.r = .noRequirement

/-- What the model is certain of: an actual input, or the target of a prediction. -/
def Sure (x : In) (q : Rat) : Prop := (∀ g, x.pred = some g → q = g.cfd) ∧ (x.pred = none → q = x.cfd)

/-- The simulations the input belongs to. -/
def InSims (x : In) (l : List Nat) : Prop :=
  (∀ g, x.pred = some g → l = g.sims) ∧ (x.pred = none → l = [])

/-- Actual inputs and predictions that are no simulations. -/
def Real (x : In) : Prop := InSims x []

/-- Chaining is allowed for the input: by the requirements in force, or, for a simulation, by those in one
of its simulations, unless there is an actual one. -/
def Allowed (x : In) (a : Acc) (ans : Nat → Acc) : Prop :=
  (Real x → Allows a) ∧ (¬ Real x → a.r = .weakEnabled ∨ ∃ l s, InSims x l ∧ s ∈ l ∧ Allows (ans s))

/-- `r` is one of the ways an answer has of binding the model: those of the requirements, or that of the input
alone if there are none. -/
def Way (rs : List Res) (r : Option Res) : Prop := (∃ y ∈ rs, r = some y) ∨ (rs = [] ∧ r = none)

/-- `s` is the first simulation of the input in which chaining is allowed. -/
def FirstAllowed (x : In) (ans : Nat → Acc) (s : Nat) : Prop :=
  ∃ l₁ l₂, InSims x (l₁ ++ s :: l₂) ∧ Allows (ans s) ∧ ∀ y ∈ l₁, ¬ Allows (ans y)

/-- The ways to bind the model for the input. -/
def Binds (x : In) (a : Acc) (ans : Nat → Acc) (r : Option Res) : Prop :=
  (Real x ∨ a.r = .weakEnabled → Way a.results r) ∧
  (¬ Real x → a.r ≠ .weakEnabled → ∃ s, FirstAllowed x ans s ∧ Way (ans s).results r)

/-- `p` predicts `b` with confidence `c`, in the simulations of the input. -/
structure Predicts (A : Arith) (x : In) (b : Bound) (c : Rat) (p : Made) : Prop where
  rhs : p.rhs = b.rhs
  positive : p.positive = b.positive
  before : p.before = b.before
  cfd : p.cfd = A.store c
  sims : InSims x p.sims

/-- The prediction is worth making: the confidence exceeds the threshold of the group and, unless simulated, the
predicted time is to come. -/
def Worth (m : Mdl) (now : Int) (x : In) (b : Bound) (c : Rat) : Prop :=
  m.thr < c ∧ (Real x → now < b.before)

/-- The predictions among the effects. -/
def guesses (es : List Eff) : List Made := es.filterMap (fun e => match e with | .predict p _ _ => some p | _ => none)
/-- Those monitors among the effects for which failures count. -/
def raters (es : List Eff) : List Made :=
  es.filterMap (fun e => match e with | .monitor p _ true => some p | _ => none)
/-- All monitors. -/
def watched (es : List Eff) : List Made :=
  es.filterMap (fun e => match e with | .monitor p _ _ => some p | _ => none)

/-- C113, with the parts that hold in general. -/
structure C113At (A : Arith) (m : Mdl) (now : Int) (same : Nat → Nat → Bool) (x : In)
    (bind : Option Res → Option Bound) (a : Acc) (ans : Nat → Acc) (es : List Eff) : Prop where
  /-- nothing is predicted that should not be -/
  sound : ∀ p sln res, Eff.predict p sln res ∈ es → m.isReq = false ∧ Allowed x a ans ∧
    ∃ r b q, Binds x a ans r ∧ bind r = some b ∧ Sure x q ∧ Predicts A x b (A.mul q m.rate) p ∧
      Worth m now x b (A.mul q m.rate) ∧ sln = A.store (A.mul q m.rate) ∧
      (Real x → res = Lifetime.goalRes m.ref m.upr now (b.before - now)) ∧ (¬ Real x → res = 1)
  /-- what should be predicted is, or something like it -/
  complete : m.isReq = false → Allowed x a ans → ∀ r b q, Binds x a ans r → bind r = some b → Sure x q →
    Worth m now x b (A.mul q m.rate) →
    ∃ p sln res, Eff.predict p sln res ∈ es ∧ (p.rhs = b.rhs ∨ same b.rhs p.rhs = true)
  /-- once -/
  once : (guesses es).Pairwise (fun p q => same q.rhs p.rhs = false)

/-- C113: from an input that matches its left-hand side a model predicts its right-hand side, for each way the
requirements in force have of binding it, exactly when these allow it, the guards hold, the confidence exceeds the
threshold and the time has not passed; no prediction is made twice. -/
def C113_full : Prop :=
  ∀ A m now same x trig bind a ans,
    C113At A m now same x bind a ans (reduce A m now same x .positive trig bind a ans).1

/-- C114: a prediction made from an actual input is followed, with failures counting, and those not made are
followed without; no other is. A requirement is held to account for a prediction if, and only if, that prediction is
followed. -/
structure C114At (A : Arith) (m : Mdl) (now : Int) (x : In) (bind : Option Res → Option Bound) (a : Acc)
    (ans : Nat → Acc) (es : List Eff) : Prop where
  /-- what an actual input could make the model predict is followed -/
  each : x.pred = none → ∀ r b, Binds x a ans r → bind r = some b →
    (Allowed x a ans → now < b.before → ∃ p rates, Predicts A x b (A.mul x.cfd m.rate) p ∧ Eff.monitor p true rates ∈ es ∧
      (rates = true ↔ m.thr < A.mul x.cfd m.rate)) ∧
    (¬ Allowed x a ans → m.hasTpl = false → ∃ p, Predicts A x b 0 p ∧ Eff.monitor p false false ∈ es)
  raters : x.pred = none → raters es = guesses es
  rdx : ∀ p, p ∈ guesses es → x.pred = none → ∃ g, Eff.rdx x.id g p ∈ es
  only : x.pred ≠ none → watched es = []
  account : ∀ p, p ∈ watched es → (a.weak ≠ [] ∨ a.strong ≠ []) → Eff.active p ∈ es
  follow : ∀ p, Eff.active p ∈ es → p ∈ watched es

def C114_full : Prop :=
  ∀ A m now same x trig bind a ans, m.isReq = false →
    C114At A m now x bind a ans (reduce A m now same x .positive trig bind a ans).1

/-- C115: for an actual input, the instance of the model is shown to the group of the model with what it predicts,
and to the secondary group whenever a prediction could be made in time. -/
def C115_full : Prop :=
  ∀ A m now same x trig bind a ans r b, m.isReq = false → x.pred = none → Allowed x a ans → Binds x a ans r →
    bind r = some b → now < b.before →
    let es := (reduce A m now same x .positive trig bind a ans).1
    (∀ q, Sure x q → Worth m now x b (A.mul q m.rate) → ∃ wre sln res, Eff.inst b.inst wre none .primary sln res ∈ es) ∧
      ∃ wre sln res, Eff.inst b.inst wre none .secondary sln res ∈ es

/-- C116: a model whose right-hand side is an instance of another predicts nothing itself. For each way to bind it,
its production is notified and given to the other model's controller, together with whether its own requirements
allowed it: with the confidence of a prediction if so; if not, with no confidence and for actual inputs only. -/
structure C116At (A : Arith) (m : Mdl) (x : In) (bind : Option Res → Option Bound) (a : Acc) (ans : Nat → Acc)
    (es : List Eff) : Prop where
  only : ∀ e ∈ es, (∃ p, e = .rdx x.id none p) ∨ (∃ p ok, e = .require p ok) ∨ ∃ i d, e = .evidence i d
  handed : ∀ p ok, Eff.require p ok ∈ es → Eff.rdx x.id none p ∈ es ∧ (ok = true ↔ Allowed x a ans) ∧
      ∃ r b c, Binds x a ans r ∧ bind r = some b ∧ Predicts A x b c p ∧
        (ok = true → ∃ q, Sure x q ∧ c = A.mul q m.rate) ∧ (ok = false → c = 0 ∧ x.pred = none)
  each : ∀ r b, Binds x a ans r → bind r = some b →
      (Allowed x a ans → ∃ q p, Sure x q ∧ Predicts A x b (A.mul q m.rate) p ∧ Eff.require p true ∈ es) ∧
      (¬ Allowed x a ans → x.pred = none → m.hasTpl = false → ∃ p, Predicts A x b 0 p ∧ Eff.require p false ∈ es)

def C116_full : Prop :=
  ∀ A m now same x trig bind a ans, m.isReq = true →
    C116At A m x bind a ans (reduce A m now same x .positive trig bind a ans).1

/-- C117: what a simulation draws from a weak requirement that a strong one could defeat depends on it, the
prediction and the instance of the model alike. -/
def C117_depends : Prop :=
  ∀ A m now same x trig bind a ans, 0 < m.wr → 0 < m.sr → m.isReq = false → ¬ Real x →
    ∀ e : Entry, (∀ r, Binds x a ans r → r = some (.weak e)) →
    let es := (reduce A m now same x .positive trig bind a ans).1
    (∀ p sln res, Eff.predict p sln res ∈ es → e.id ∈ p.validities) ∧
      (∀ i wre s v g sln res, Eff.inst i wre (some (s, v)) g sln res ∈ es → e.id ∈ v)

/-- C117: a strong requirement, predicted in a simulation, withdraws what was drawn there from the weak ones it
contradicts. -/
def C117_withdraws : Prop :=
  ∀ (m : Mdl) (contra : Nat → Bool) (ws : List Weak) (p : Made) (allowed : Bool), p.positive = false →
    0 < m.wr → 0 < m.sr → ∀ e ∈ ws, e.used = true → (∃ s ∈ p.sims, s ∈ e.sims) → contra e.id = true →
    e.cfd ≤ p.cfd → Kept.withdraw e.id ∈ storeRequirement m contra ws p allowed

def C117_full : Prop := C117_depends ∧ C117_withdraws

/-- C118: a secondary controller only watches, and passes on whether its own requirements allowed the production. -/
def C118_full : Prop :=
  ∀ m cfd lhs bind a, ∀ e ∈ (reduceSecondary m cfd lhs bind a).1,
    (∃ p, e = .active p) ∨ (∃ p, m.isReq = false ∧ e = .monitor p false false) ∨
      (∃ p ok, m.isReq = true ∧ e = .require p ok ∧ (ok = true ↔ Allows a))

end Verif.Predict
