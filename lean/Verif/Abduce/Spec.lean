import Verif.Abduce.Model
/-!
# What backward chaining should do
-/
namespace Verif.Abduce
open Verif.F32 (Arith)
open Verif.Requirements (Status Acc Entry)

/-- The requirements allow the model to be used. -/
def Open (a : Acc) : Prop := a.r = .weakEnabled ∨ a.r = .noRequirement

/-- The model can be run backwards now: its forward timings follow from the goal and end in the future, and its
guards can be evaluated. -/
def CanRun (now : Int) (r : Ready) : Prop := (∃ b, r.fwdBefore = some b ∧ now < b) ∧ r.scans = true

/-- The goal concerns the model, `opposite` saying that what it is about is the contrary of what the model leads to. -/
def Concerns (m : Meets) (opposite : Bool) : Prop :=
  (opposite = false ∧ (m = .rhs ∨ m = .inst)) ∨ (opposite = true ∧ m = .notRhs)

/-- `t` is what the fact `l` says, or the contrary, with confidence `conf`. -/
structure Says (A : Arith) (l : Bound) (opposite : Bool) (conf : Rat) (t : Target) : Prop where
  obj : t.obj = .thing l.n
  sign : t.positive = true ↔ (l.positive = true ↔ opposite = false)
  after : t.after = l.after
  before : t.before = l.before
  cfd : t.cfd = A.store conf

/-- `t` is the instance `l` of the model, with confidence `conf`. -/
structure Instance (A : Arith) (l : Bound) (conf : Rat) (t : Target) : Prop where
  obj : t.obj = .inst l.n false
  positive : t.positive = l.positive
  after : t.after = l.after
  before : t.before = l.before
  cfd : t.cfd = A.store conf

/-- The goal is to be acted upon: it does not belong to a simulation with time left. -/
def Actual (c : Ctl) (g : Goal) : Prop :=
  ∀ s, g.sim = some s → s.mode = .root ∧ s.thz ≤ c.minThz.tdiv 2
/-- The goal is to be simulated, in `s`: there is more time than the allowance for going back up. -/
def Simulated (c : Ctl) (g : Goal) (s : Sim) : Prop := g.sim = some s ∧ c.minThz.tdiv 2 < s.thz
/-- The simulation `s` ends with this goal. -/
def Ends (c : Ctl) (g : Goal) (s : Sim) : Prop := g.sim = some s ∧ s.thz ≤ c.minThz.tdiv 2 ∧ s.mode ≠ .root

/-- A simulation that only says whose sub-goal this is. -/
def Plain (c : Ctl) (sup : Nat) (opposite isReq : Bool) (s : Sim) : Prop :=
  s.mode = .root ∧ s.thz = 0 ∧ s.sup = sup ∧ s.opposite = opposite ∧ s.root = c.id ∧ s.isReq = isReq

/-- C119: goals that are not simulated. -/
structure C119At (A : Arith) (c : Ctl) (now : Int) (rdy : Ready) (K : Known) (B : Binds) (a : Acc) (g : Goal) (m : Meets)
    (es : List Eff) : Prop where
  /-- nothing is done without reason -/
  idle : (A.mul c.rate g.cfd ≤ c.thr ∨ ¬ CanRun now rdy ∨ m = .no) → es = []
  /-- the left-hand side becomes a goal, unless it is known; it is followed until its end, and shown unless it is
  predicted with more confidence -/
  lhs : ∀ opposite l i t, c.thr < A.mul c.rate g.cfd → CanRun now rdy → Concerns m opposite → Open a →
    B.lhs a.loaded = some (l, i) → Says A l opposite (A.mul c.rate g.cfd) t →
    (K.seen t ≠ none → es = []) ∧
    (K.seen t = none → ∃ s, Plain c g.id opposite false s ∧
      let made := Made.goal t s (a.ground.map Entry.id)
      (∀ e, K.foreseen t = some (e, true) → es = [.watch .g made t.before 0 (some e)]) ∧
      ((∀ e, K.foreseen t ≠ some (e, true)) → ∃ res wre, (wre = true ↔ a.r = .weakEnabled) ∧
        es = [.watch .g made t.before 0 none, .inject made now res, .rdx i wre g.id made]))
  /-- nothing is done if the guards fail -/
  guards : Open a → B.lhs a.loaded = none → es = []
  /-- the instance becomes a goal if the requirements do not allow the model; it is followed until the end of the
  goal -/
  inst : ∀ opposite, c.thr < A.mul c.rate g.cfd → CanRun now rdy → Concerns m opposite → ¬ Open a →
    ∃ t s res, Instance A (B.inst none) (A.mul c.rate g.cfd) t ∧ Plain c g.id opposite true s ∧
      let made := Made.goal t s none
      es = [.watch .r made g.before now none, .inject made now res, .rdx (B.inst none).n false g.id made]

/-- C119: a goal that is not simulated becomes a goal for the left-hand side of each model that leads to it, or to its
contrary, if the requirements of the model allow that, and else for its instance. -/
def C119_full : Prop :=
  ∀ A c now rdy K fresh B a sa g m, Actual c g →
    C119At A c now rdy K B a g m (reduceGoal A c now rdy K fresh B a sa g m)

/-- The goals shown that are not simulated: with their target and resilience. -/
def shown (es : List Eff) : List (Target × Int) :=
  es.filterMap (fun e => match e with | .inject (.goal t _ _) _ res => some (t, res) | _ => none)

/-- What is injected. -/
def injected (es : List Eff) : List (Target × Int × Int) :=
  es.filterMap (fun e => match e with
    | .inject (.goal t _ _) ijt res => some (t, ijt, res)
    | .inject (.pred t _ _) ijt res => some (t, ijt, res)
    | _ => none)

/-- C120: what is injected is given the resilience that corresponds to the time until the end of its target, which is
to come. -/
def InTime (c : Ctl) (now : Int) (es : List Eff) : Prop :=
  ∀ t ijt res, (t, ijt, res) ∈ injected es → now < t.before ∧ res = Lifetime.goalRes c.ref c.upr now (t.before - now)

def C120_full : Prop :=
  (∀ A c now rdy K fresh B a sa g m, InTime c now (reduceGoal A c now rdy K fresh B a sa g m)) ∧
  (∀ A c now K B a s conf, InTime c now (check A c now K B a s conf).1) ∧
  (∀ A c now K fresh B a s conf, InTime c now (checkSimActual A c now K fresh B a s conf).1) ∧
  (∀ A c now K same B sa G s conf issued es issued' ok,
    checkSim A c now K same B sa G s conf issued = some (es, issued', ok) → InTime c now es)

/-- The simulation of what is made for a goal simulated in `s`: it has the same root, less time, and the goal as
super-goal; it is mandatory if it goes against the goal, or `s` was; its solution is the one of the first model. -/
structure SubSim (A : Arith) (c : Ctl) (now : Int) (conf : Rat) (g : Goal) (s : Sim) (opposite : Bool) (s' : Sim) : Prop where
  root : s'.root = s.root
  sup : s'.sup = g.id
  thz : s'.thz = s.thz - c.minThz.tdiv 2
  against : s'.opposite = opposite
  mode : (s'.mode = .mandatory ↔ s.mode = .mandatory ∨ opposite = true) ∧ s'.mode ≠ .root
  sol : s'.sol = some c.id
  first : s.mode = .root → s'.solCfd = A.store conf ∧ s'.solBefore = now + s'.thz
  later : s.mode ≠ .root → s'.solCfd = s.solCfd ∧ s'.solBefore = s.solBefore

/-- The way to bind the model in a simulation: that of the actual requirements if they allow it, else that of the
requirements in the simulation if one of these does. -/
def SimOpen (a sa : Acc) (e : Option Entry) : Prop :=
  (Open a ∧ e = a.loaded) ∨ (¬ Open a ∧ sa.r = .weakEnabled ∧ e = sa.loaded)

/-- The actual and the simulated requirements are those of one model: if there are none in the simulation and this
allows the model, there can be strong ones only. -/
def Agree (a sa : Acc) : Prop := sa.r = .noRequirement → a.r = .noRequirement ∨ a.r = .strongNoWeak

/-- C121: goals that are simulated, without the last part. -/
structure C121Body (A : Arith) (c : Ctl) (now : Int) (rdy : Ready) (K : Known) (fresh : Target → Bool) (B : Binds) (a sa : Acc)
    (g : Goal) (m : Meets) (s : Sim) (es : List Eff) : Prop where
  idle : (A.mul c.rate g.cfd ≤ c.thr ∨ ¬ CanRun now rdy ∨ m = .no ∨ (s.mode = .mandatory ∧ m = .notRhs)) → es = []
  /-- everything made belongs to one simulation, below `s` -/
  within : ∀ opposite, Concerns m opposite → ∀ e ∈ es, ∃ s', SubSim A c now (A.mul c.rate g.cfd) g s opposite s' ∧
    ((∃ t k ijt res x y z, e = .inject (.goal t s' none) ijt res ∨ e = .watch k (.goal t s' none) x y z) ∨
      ∃ t ijt res, e = .inject (.pred t [s'] []) ijt res)
  /-- a command is predicted, half of the remaining time before the solution is due -/
  cmd : ∀ opposite e l i t, c.thr < A.mul c.rate g.cfd → CanRun now rdy → Concerns m opposite →
    ¬ (s.mode = .mandatory ∧ opposite = true) → SimOpen a sa e → B.lhs e = some (l, i) →
    Says A l opposite (A.mul c.rate g.cfd) t → K.seen t = none → K.foreseen t = none → c.isCmd = true →
    ∃ s' ijt res, SubSim A c now (A.mul c.rate g.cfd) g s opposite s' ∧ .inject (.pred t [s'] []) ijt res ∈ es ∧
      now ≤ ijt ∧ s'.solBefore - s'.thz.tdiv 2 ≤ ijt ∧ (ijt = now ∨ ijt = s'.solBefore - s'.thz.tdiv 2)
  /-- anything else becomes a goal, unless it is one in the simulation already -/
  lhs : ∀ opposite e l i t, c.thr < A.mul c.rate g.cfd → CanRun now rdy → Concerns m opposite →
    ¬ (s.mode = .mandatory ∧ opposite = true) → SimOpen a sa e → B.lhs e = some (l, i) →
    Says A l opposite (A.mul c.rate g.cfd) t → K.seen t = none → K.foreseen t = none → c.isCmd = false →
    (fresh t = false → es = []) ∧
    (fresh t = true → ∃ s' res, SubSim A c now (A.mul c.rate g.cfd) g s opposite s' ∧
      es = [.watch .sg (.goal t s' none) 0 (now + s'.thz) none, .inject (.goal t s' none) now res])
  /-- the instance becomes a goal if nothing allows the model; and also for a command, whatever allows it actually,
  unless it is a goal already -/
  inst : ∀ opposite, c.thr < A.mul c.rate g.cfd → CanRun now rdy → Concerns m opposite →
    ¬ (s.mode = .mandatory ∧ opposite = true) → ((∀ e, ¬ SimOpen a sa e) ∨ (c.isCmd = true ∧ Open a)) →
    ∃ e t, Instance A (B.inst e) (A.mul c.rate g.cfd) t ∧
      ((Open a ∧ fresh t = false) ∨ ∃ s' res, SubSim A c now (A.mul c.rate g.cfd) g s opposite s' ∧
        .inject (.goal t s' none) now res ∈ es ∧ .watch .sr (.goal t s' none) 0 (now + s'.thz) none ∈ es)

/-- C121: goals that are simulated. -/
structure C121At (A : Arith) (c : Ctl) (now : Int) (rdy : Ready) (K : Known) (fresh : Target → Bool) (B : Binds) (a sa : Acc)
    (g : Goal) (m : Meets) (s : Sim) (es : List Eff) : Prop extends C121Body A c now rdy K fresh B a sa g m s es where
  /-- a branch that arrives at something known says so -/
  reported : ∀ opposite e l i t, c.thr < A.mul c.rate g.cfd → CanRun now rdy → Concerns m opposite →
    ¬ (s.mode = .mandatory ∧ opposite = true) → SimOpen a sa e → B.lhs e = some (l, i) →
    Says A l opposite (A.mul c.rate g.cfd) t → (K.seen t ≠ none ∨ K.foreseen t ≠ none) →
    ∃ m ijt res, .inject m ijt res ∈ es

/-- C121 at the end of a simulation: the left-hand side is predicted, as the guards make it. -/
def C121End (A : Arith) (c : Ctl) (now : Int) (rdy : Ready) (B : Binds) (g : Goal) (m : Meets) (s : Sim) (es : List Eff) : Prop :=
  ∀ opposite, c.thr < A.mul c.rate g.cfd → CanRun now rdy → Concerns m opposite → ∀ e ∈ es, ∃ l i t ijt res,
    B.lhs none = some (l, i) ∧ Says A l opposite (A.mul c.rate g.cfd) t ∧ e = .inject (.pred t [s] []) ijt res

/-- C121: a goal that is simulated is simulated through each model that leads to it, as far as there is time. -/
def C121_full : Prop :=
  ∀ A c now rdy K fresh B a sa g m s, Agree a sa →
    (Simulated c g s → C121At A c now rdy K fresh B a sa g m s (reduceGoal A c now rdy K fresh B a sa g m)) ∧
    (Ends c g s → C121End A c now rdy B g m s (reduceGoal A c now rdy K fresh B a sa g m))

/-! ## When a requirement arrives -/

/-- C122 for a goal that is acted upon: a model for which a requirement was missing is used, when the requirement
arrives, as it would have been; the wait is over then. -/
def C122_late : Prop :=
  ∀ A c now K fresh B a sa g m opposite t s res rdy now' rdy' a',
    A.store (A.store (A.mul c.rate g.cfd)) = A.store (A.mul c.rate g.cfd) →
    Actual c g → c.thr < A.mul c.rate g.cfd → Concerns m opposite →
    .inject (.goal t s none) now res ∈ reduceGoal A c now rdy K fresh B a sa g m → ¬ Open a →
    CanRun now' rdy' →
    (Open a' → (check A c now' K B a' s t.cfd).1 = reduceGoal A c now' rdy' K fresh B a' sa g m) ∧
    (¬ Open a' → (check A c now' K B a' s t.cfd).1 = []) ∧
    ((check A c now' K B a' s t.cfd).2 = true ↔ Open a' ∧ B.lhs a'.loaded ≠ none)

/-- C122 in a simulation: what the requirements answer is always enough to go on with. -/
def C122_safe : Prop :=
  ∀ A c now K same B q caches now' sa caches' G s conf issued,
    Requirements.simBwd q now' c.wr c.sr caches = some (sa, caches') →
    checkSim A c now K same B sa G s conf issued ≠ none

/-- C122 in a simulation: the left-hand side is predicted in the simulations of the requirement, rests on what the
requirement rests on, and on the requirement itself if a strong one could defeat it. -/
def C122_rests : Prop :=
  ∀ A c now K same B sa G s conf issued es issued' ok,
    checkSim A c now K same B sa G s conf issued = some (es, issued', ok) → ∀ e ∈ es, ∃ r l i t vs ijt res,
      Open sa ∧ sa.ground = some r ∧ B.lhs sa.loaded = some (l, i) ∧ Says A l s.opposite conf t ∧
      e = .inject (.pred t (G r).sims vs) ijt res ∧ (∀ v ∈ (G r).validities, v ∈ vs) ∧
      (sa.r = .weakEnabled → 0 < c.wr → 0 < c.sr → (G r).consequence ∈ vs)

def C122_full : Prop := C122_late ∧ C122_safe ∧ C122_rests

/-- Weak requirements that arrive one after the other in a simulation. -/
def arrivals (A : Arith) (c : Ctl) (now : Int) (K : Known) (same : Target → Target → Bool) (B : Binds)
    (G : Entry → Ground) (s : Sim) (conf : Rat) : List Entry → List Issued → Option (List Eff × List Issued)
  | [], is => some ([], is)
  | e :: l, is =>
    match checkSim A c now K same B { r := .weakEnabled, loaded := some e, ground := some e } G s conf is with
    | none => none
    | some (x, is', _) =>
      match arrivals A c now K same B G s conf l is' with
      | none => none
      | some (y, is'') => some (x ++ y, is'')

/-- What the prediction made from a requirement rests on. -/
def Rests (c : Ctl) (g : Ground) (v : Nat) : Prop := v ∈ g.validities ∨ (0 < c.wr ∧ 0 < c.sr ∧ v = g.consequence)

/-- Being the same is an equivalence. -/
structure Equiv (same : Target → Target → Bool) : Prop where
  refl : ∀ t, same t t = true
  symm : ∀ t u, same t u = true → same u t = true
  trans : ∀ t u v, same t u = true → same u v = true → same t v = true

/-- The targets predicted. -/
def predicted (es : List Eff) : List Target :=
  es.filterMap (fun e => match e with | .inject (.pred t _ _) _ _ => some t | _ => none)

/-- C123: a command is predicted once in a simulation, whichever of the requirements that allow it come, and it stands
as long as what one of them rests on stands; `stands` says what does. -/
structure C123At (A : Arith) (c : Ctl) (same : Target → Target → Bool) (B : Binds) (G : Entry → Ground) (s : Sim) (conf : Rat)
    (l : List Entry) (es : List Eff) (is : List Issued) : Prop where
  once : (predicted es).Pairwise (fun t u => same t u = false)
  each : ∀ e ∈ l, ∀ b i t, B.lhs (some e) = some (b, i) → Says A b s.opposite conf t →
    ∃ x ∈ is, same t x.t = true ∧ x.t ∈ predicted es
  survives : ∀ (stands : Nat → Prop), ∀ x ∈ is, ∀ e ∈ l, ∀ b i t, B.lhs (some e) = some (b, i) →
    Says A b s.opposite conf t → same t x.t = true → (∀ v, Rests c (G e) v → stands v) → ∀ v ∈ x.validities, stands v
  withdrawn : ∀ (stands : Nat → Prop), ∀ x ∈ is, (∀ v ∈ x.validities, stands v) → ∃ e ∈ l, ∃ b i t,
    B.lhs (some e) = some (b, i) ∧ Says A b s.opposite conf t ∧ same t x.t = true ∧ ∀ v, Rests c (G e) v → stands v

def C123_full : Prop :=
  ∀ A c now K same B G s conf l es is, Equiv same → (∀ t, K.seen t = none ∧ K.foreseen t = none) →
    (∀ e ∈ l, B.lhs (some e) ≠ none) → (∃ x, ∀ e ∈ l, (G e).sims = [x]) →
    arrivals A c now K same B G s conf l [] = some (es, is) →
    C123At A c same B G s conf l es is

end Verif.Abduce
