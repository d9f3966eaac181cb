import Verif.Lifetime.Model
/-!
# What is made of a composite state that is complete

Transcription of `CSTOverlay::update` and `get_simulation` (`/repo/r_exec/cst_controller.cpp:215-245,
501-509`), `inject_production` (137-198), `CSTController::get_f_icst` (729-737), `inject_prediction`
(739-751, and that of `HLPController`, hlp_controller.cpp:190-203), `inject_icst` (753-776), with
`Pred::is_invalidated`, `_Fact::is_invalidated` and `ICST::is_invalidated` (factory.cpp:575-608, 223-233,
915-928).

How inputs are matched is `Verif.Cst`; here they come in the order in which the overlay took them.
Simulations, validities and facts are addresses; sets are lists without order in mind.  `none` is a null
pointer that is followed.
-/
namespace Verif.Icst

/-- A prediction, as what an input says: confidence of its target, simulations, validities. -/
structure Pred where
  cfd : Rat
  sims : List Nat := []
  vals : List Nat := []
deriving DecidableEq, Repr

/-- An input: a fact, or the fact of a prediction. -/
structure Input where
  id : Nat
  cfd : Rat
  pred : Option Pred := none
deriving DecidableEq, Repr

/-- Simulations: `root_`, and `get_root_sim()` (`none`: NULL). -/
structure Sims where
  root : Nat → Nat
  top : Nat → Option Nat

/-- What an overlay has gathered: `predictions_`, `simulations_`, `defeasible_validities_`, `lowest_cfd_`, and the
inputs (`axiom_inputs_` and `non_axiom_inputs_`). -/
structure Acc where
  preds : List Nat := []
  sims : List Nat := []
  vals : List Nat := []
  lowest : Rat := 1
  ins : List Input := []
deriving DecidableEq, Repr

/-- `insert` into a set. -/
def insert (l : List Nat) (x : Nat) : List Nat := if l.contains x then l else l ++ [x]

/-- `get_simulation(root)` (cst_controller.cpp:501-509) finds one. -/
def has (S : Sims) (l : List Nat) (root : Nat) : Bool := l.any fun s => S.root s == root

/-- The loop over the simulations of a prediction (cst_controller.cpp:228-233). -/
def addSims (S : Sims) : List Nat → List Nat → Option (List Nat)
  | acc, [] => some acc
  | acc, x :: xs => match S.top x with
    | none => none
    | some r => addSims S (if has S acc (S.root r) then acc else insert acc x) xs

/-- `update` (cst_controller.cpp:215-245). -/
def update (S : Sims) (a : Acc) (i : Input) : Option Acc :=
  let low (c : Rat) : Rat := if c < a.lowest then c else a.lowest
  match i.pred with
  | none => some { a with lowest := low i.cfd, ins := a.ins ++ [i] }
  | some p =>
    let vals := p.vals.foldl insert a.vals
    if p.sims ≠ [] then
      (addSims S a.sims p.sims).map fun s => { a with sims := s, vals := vals, lowest := low p.cfd, ins := a.ins ++ [i] }
    else some { a with preds := insert a.preds i.id, vals := vals, lowest := low p.cfd, ins := a.ins ++ [i] }

/-- The inputs one after the other. -/
def gather (S : Sims) : Acc → List Input → Option Acc
  | a, [] => some a
  | a, i :: is => match update S a i with
    | none => none
    | some a => gather S a is

/-- A group: address, saliency threshold, update period. -/
structure Grp where
  id : Nat
  thr : Rat
  upr : Nat
deriving DecidableEq, Repr

/-- The groups of the controller, the time reference and the base period. -/
structure Ctl where
  primary : Grp
  secondary : Grp
  outs : List Nat := []
  ref : Int := 0
  base : Int := 1
deriving DecidableEq, Repr

inductive Kind | actual | predicted | simulated
deriving DecidableEq, Repr

/-- A view: group, saliency, resilience. -/
structure Shown where
  grp : Nat
  sal : Rat
  res : Int
deriving DecidableEq, Repr

/-- What is made: a fact of the instance or a prediction of it; the confidence of the fact of the instance, its
components; simulations, grounds and validities of the prediction; the views. -/
structure Made where
  kind : Kind
  cfd : Rat
  parts : List Input
  sims : List Nat := []
  grounds : List Nat := []
  vals : List Nat := []
  shown : List Shown
deriving DecidableEq, Repr

/-- The time left (cst_controller.cpp:150-155). -/
def ttl (now before : Int) : Int := if now ≥ before then 0 else before - now

/-- `inject_icst` (cst_controller.cpp:753-776). -/
def injectFact (c : Ctl) (now ttl : Int) (lowest : Rat) : List Shown :=
  (if lowest > c.primary.thr then
      ⟨c.primary.id, 1, Lifetime.viewRes c.ref c.base c.primary.upr now ttl⟩ :: c.outs.map fun o => ⟨o, 1, 1⟩
    else []) ++
  (if lowest > c.secondary.thr then [⟨c.secondary.id, 1, Lifetime.viewRes c.ref c.base c.secondary.upr now ttl⟩] else [])

/-- `inject_production` (cst_controller.cpp:137-198); the fact of the instance is made with confidence 1
(`build_f_ihlp`, binding_map.cpp:1158); `last` is the input that completed the state, `before` the end of the
forward timings. -/
def produce (c : Ctl) (now before : Int) (a : Acc) (last : Input) : Made :=
  if a.sims = [] then
    if a.preds ≠ [] then
      { kind := .predicted, cfd := 1, parts := a.ins, grounds := a.preds
        shown := if a.lowest > c.primary.thr then [⟨c.primary.id, a.lowest, Lifetime.goalRes c.ref c.primary.upr now (ttl now before)⟩] else [] }
    else { kind := .actual, cfd := 1, parts := a.ins, shown := injectFact c now (ttl now before) a.lowest }
  else
    { kind := .simulated, cfd := 1, parts := a.ins, sims := a.sims, vals := if last.pred.isSome then a.vals else []
      shown := if a.lowest > c.primary.thr then [⟨c.primary.id, a.lowest, 1⟩] else [] }

/-- What completing a state with these inputs, the last one last, makes. -/
def complete (S : Sims) (c : Ctl) (now before : Int) (is : List Input) (last : Input) : Option Made :=
  (gather S {} (is ++ [last])).map fun a => produce c now before a last

/-- What has been invalidated: facts (with what they refer to, other than simulations and validities), simulations,
validities. -/
structure Dead where
  fact : Nat → Bool
  sim : Nat → Bool
  val : Nat → Bool

/-- `is_invalidated` of an input (factory.cpp:223-233, 575-608). -/
def Dead.input (D : Dead) (i : Input) : Bool :=
  D.fact i.id || match i.pred with | none => false | some p => p.sims.any D.sim || p.vals.any D.val

/-- `is_invalidated` of what was made: simulations, grounds, validities, and the instance with its components; `own`:
it has itself been invalidated. -/
def Dead.made (D : Dead) (own : Bool) (m : Made) : Bool :=
  own || m.sims.any D.sim || m.grounds.any (fun x => (m.parts.find? (fun i => i.id == x)).any D.input) || m.vals.any D.val || m.parts.any D.input

end Verif.Icst
