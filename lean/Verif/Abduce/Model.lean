import Verif.Requirements.Model
import Verif.Lifetime.Model
/-!
# Backward chaining

Transcription of `PrimaryMDLController::abduce`, `abduce_lhs`, `abduce_imdl`, `abduce_simulated_lhs`,
`abduce_simulated_imdl`, `check_imdl`, `check_simulated_imdl`, `predict_simulated_lhs`, of the part of
`reduce` that deals with goals (`/repo/r_exec/mdl_controller.cpp:1784-1821, 1848-1985, 2016-2360`) and of
`PMDLController::inject_goal`, `inject_simulation` (1165-1191).

What the requirements answer is `Verif.Requirements.Acc`: of `retrieve_imdl_bwd` and of
`retrieve_simulated_imdl_bwd`. Binding maps are not opened: `Binds` gives what the left-hand side and the
instance become with the map in which the bindings of an entry have been loaded (`none`: those of the goal
only). What the controller knows is a function of the target asked about (`check_evidences`,
`check_predicted_evidences`, `Verif.EvidenceCache`). Evaluating the guards a second time with the same map
(2273 and 2018) is taken to give the same. The clock does not advance during a call. Effects are listed in
the order in which they happen.
-/
namespace Verif.Abduce
open Verif.F32 (Arith)
open Verif.Requirements (Status Acc Entry)

/-- `SimMode` (r_exec/factory.h). -/
inductive Mode | root | optional | mandatory
deriving DecidableEq, Repr

/-- A simulation (r_exec/factory.cpp:718-753): mode, horizon, super-goal, whether the branch goes against
the super-goal, the controllers it begins with and that solves it, confidence and end of the solution, and
`is_requirement_`. -/
structure Sim where
  mode : Mode
  thz : Int
  sup : Nat
  opposite : Bool := false
  root : Nat
  sol : Option Nat := none
  solCfd : Rat := 1
  solBefore : Int := 0
  isReq : Bool := false
deriving DecidableEq, Repr

/-- What a fact says: something, or an instance of the model with its weak-requirement-enabled member. -/
inductive Obj
  | thing (n : Nat)
  | inst (n : Nat) (wre : Bool)
deriving DecidableEq, Repr

/-- A fact or an |fact, as the target of a goal or of a prediction. -/
structure Target where
  obj : Obj
  positive : Bool := true
  after : Int
  before : Int
  cfd : Rat
deriving DecidableEq, Repr

/-- A goal to pursue: its identity, the confidence and the end of its target, its simulation. -/
structure Goal where
  id : Nat
  cfd : Rat
  before : Int
  sim : Option Sim := none
deriving DecidableEq, Repr

/-- What is read from the model, its controller, the group that hosts it and the settings: `minThz` is
`get_min_sim_time_horizon()`, `wr` and `sr` are the requirement counts. -/
structure Ctl where
  id : Nat
  isCmd : Bool := false
  rate : Rat := 1
  thr : Rat := 0
  ref : Int := 0
  upr : Nat := 1
  minThz : Int := 0
  wr : Nat := 0
  sr : Nat := 0
deriving DecidableEq, Repr

/-- A bound fact of the left-hand side, or a bound instance: which, whether a fact, its times. -/
structure Bound where
  n : Nat
  positive : Bool := true
  after : Int
  before : Int
deriving DecidableEq, Repr

/-- What binding maps give. `lhs`: the left-hand side and the instance once the backward guards have been
evaluated (`none`: they fail); `raw`: the left-hand side bound without the guards; `inst`: the instance, with
the times of the template parameters if the model has them (mdl_controller.cpp:2068-2076, 2698-2738). -/
structure Binds where
  lhs : Option Entry → Option (Bound × Nat)
  raw : Bound
  inst : Option Entry → Bound

/-- What is known: the evidence found for a target, and whether it is for or against it. -/
structure Known where
  seen : Target → Option (Nat × Bool)
  foreseen : Target → Option (Nat × Bool)

/-- What is injected. -/
inductive Made
  | goal (t : Target) (sim : Sim) (ground : Option Nat)
  | pred (t : Target) (sims : List Sim) (validities : List Nat)
deriving DecidableEq, Repr

/-- `GMonitor`, `RMonitor`, `SGMonitor`, `SRMonitor`. -/
inductive Kind | g | r | sg | sr
deriving DecidableEq, Repr

/-- Views injected (with the time of injection and the resilience), mk.rdx notifications (with the instance
and the super-goal), monitors (with their deadline, the end of the simulation and the predicted evidence). -/
inductive Eff
  | inject (m : Made) (ijt : Int) (res : Int)
  | rdx (i : Nat) (wre : Bool) (sup : Nat) (m : Made)
  | watch (k : Kind) (m : Made) (deadline simEnd : Int) (evidence : Option Nat)
deriving DecidableEq, Repr

/-- `bind_pattern(get_lhs())`, `set_opposite()`, `set_cfd(confidence)` (mdl_controller.cpp:2020-2023,
2100-2103, 2341-2344). -/
def target (A : Arith) (b : Bound) (opposite : Bool) (conf : Rat) : Target :=
  { obj := .thing b.n, positive := b.positive != opposite, after := b.after, before := b.before, cfd := A.store conf }

/-- The target of a goal for an instance (mdl_controller.cpp:2068-2076, 2240-2249). -/
def instTarget (A : Arith) (b : Bound) (conf : Rat) : Target :=
  { obj := .inst b.n false, positive := b.positive, after := b.after, before := b.before, cfd := A.store conf }

/-- `inject_goal` (mdl_controller.cpp:1165-1180): `goal->get_before()` is the end of the fact of the goal,
which is `now` when it is made (2048, 2081, 1363), not that of its target. -/
def injectGoal (c : Ctl) (now created : Int) (i : Nat) (wre : Bool) (sup : Nat) (m : Made) : List Eff :=
  [.inject m now (Lifetime.goalRes c.ref c.upr now (created - now)), .rdx i wre sup m]

/-- `inject_simulation` (mdl_controller.cpp:1182-1191): here it is the end of the target. -/
def injectSim (c : Ctl) (now ijt : Int) (t : Target) (m : Made) : List Eff :=
  [.inject m ijt (Lifetime.goalRes c.ref c.upr now (t.before - now))]

/-- `abduce_lhs` (mdl_controller.cpp:2016-2063), for the left-hand side `b`. -/
def pursue (A : Arith) (c : Ctl) (now : Int) (K : Known) (b : Option (Bound × Nat)) (wre opposite : Bool)
    (conf : Rat) (sup : Nat) (s : Sim) (ground : Option Nat) (setBefore : Bool) : List Eff :=
  match b with
  | none => []
  | some (l, i) =>
    let t := target A l opposite conf
    match K.seen t with
    | some _ => []
    | none =>
      let evidence := match K.foreseen t with | some (e, true) => some e | _ => none
      let s := if setBefore then { s with solBefore := l.before } else s
      let m := Made.goal t s ground
      [.watch .g m l.before 0 evidence] ++ (if evidence.isNone then injectGoal c now now i wre sup m else [])

/-- `abduce_imdl` (mdl_controller.cpp:2065-2091). -/
def askInst (A : Arith) (c : Ctl) (now : Int) (b : Bound) (conf : Rat) (sup : Nat) (supBefore : Int) (s : Sim) :
    List Eff :=
  let m := Made.goal (instTarget A b conf) s none
  [.watch .r m supBefore (now + s.thz) none] ++ injectGoal c now now b.n false sup m

/-- `abduce_simulated_lhs` with a simulation (mdl_controller.cpp:2094-2232). `fresh` is the answer of
`register_goal_target` (`Verif.Sims.register`). `register_simulated_goal_outcome` of this class (2484-2502)
makes a view that it does not inject: nothing happens. -/
def pursueSim (A : Arith) (c : Ctl) (now : Int) (K : Known) (fresh : Target → Bool) (b : Option (Bound × Nat))
    (opposite : Bool) (conf : Rat) (sup : Nat) (s : Sim) : List Eff :=
  match b with
  | none => []
  | some (l, _) =>
    let t := target A l opposite conf
    match K.seen t with
    | some _ => []
    | none =>
      match K.foreseen t with
      | some _ => []
      | none =>
        if c.isCmd then
          let s' : Sim := { mode := s.mode, thz := s.thz, sup := sup, opposite := opposite, root := s.root
                            sol := some c.id, solCfd := s.solCfd, solBefore := s.solBefore }
          injectSim c now (max now (s.solBefore - s.thz.tdiv 2)) t (.pred t [s'] [])
        else if fresh t then
          [.watch .sg (.goal t s none) 0 (now + s.thz) none] ++ injectSim c now now t (.goal t s none)
        else []

/-- `abduce_simulated_imdl` (mdl_controller.cpp:2234-2259). -/
def askInstSim (A : Arith) (c : Ctl) (now : Int) (fresh : Target → Bool) (b : Bound) (conf : Rat) (s : Sim) : List Eff :=
  let t := instTarget A b conf
  if !s.isReq && !fresh t then []
  else [.watch .sr (.goal t s none) 0 (now + s.thz) none] ++ injectSim c now now t (.goal t s none)

/-- `predict_simulated_lhs` (mdl_controller.cpp:2339-2357): the guards are not evaluated. -/
def endSim (A : Arith) (c : Ctl) (now : Int) (raw : Bound) (opposite : Bool) (conf : Rat) (s : Sim) : List Eff :=
  let t := target A raw opposite conf
  injectSim c now now t (.pred t [s] [])

/-- The simulation for the sub-goals (mdl_controller.cpp:1863-1879); `none`: the branch is given up. -/
def subSim (A : Arith) (c : Ctl) (now : Int) (conf : Rat) (sup : Nat) (s : Sim) (thz : Int) (opposite : Bool) :
    Option Sim :=
  match s.mode with
  | .root => some { mode := if opposite then .mandatory else .optional, thz := thz, sup := sup, opposite := opposite
                    root := s.root, sol := some c.id, solCfd := A.store conf, solBefore := now + thz }
  | .optional => some { mode := if opposite then .mandatory else .optional, thz := thz, sup := sup, opposite := opposite
                        root := s.root, sol := some c.id, solCfd := s.solCfd, solBefore := s.solBefore }
  | .mandatory =>
    if opposite then none
    else some { mode := .mandatory, thz := thz, sup := sup, opposite := opposite, root := s.root, sol := some c.id
                solCfd := s.solCfd, solBefore := s.solBefore }

/-- A simulation in which nothing is simulated (mdl_controller.cpp:1964, 1968, 2276). -/
def noSim (c : Ctl) (sup : Nat) (opposite : Bool) : Sim :=
  { mode := .root, thz := 0, sup := sup, opposite := opposite, root := c.id }

/-- mdl_controller.cpp:1881-1945, with time to simulate. `s` is the new simulation; `a` and `sa` are what
the requirements answer, actual and simulated. -/
def simulate (A : Arith) (c : Ctl) (now : Int) (K : Known) (fresh : Target → Bool) (B : Binds) (a sa : Acc) (sup : Goal)
    (opposite : Bool) (conf : Rat) (s : Sim) : List Eff :=
  match a.r with
  | .weakEnabled | .noRequirement =>
    if s.mode = .root then
      pursue A c now K (B.lhs a.loaded) (a.r = .weakEnabled) opposite conf sup.id s (a.ground.map Entry.id) true
    else
      pursueSim A c now K fresh (B.lhs a.loaded) opposite conf sup.id s ++
        (if c.isCmd then askInstSim A c now fresh (B.inst none) conf s else [])
  | _ =>
    let r := if a.r = .strongNoWeak ∧ sa.r = .noRequirement then .strongNoWeak else sa.r
    match r with
    | .weakEnabled | .noRequirement =>
      if s.mode = .root then
        pursue A c now K (B.lhs sa.loaded) (sa.r = .weakEnabled) opposite conf sup.id s none true
      else pursueSim A c now K fresh (B.lhs sa.loaded) opposite conf sup.id s
    | _ =>
      let s := { s with isReq := true }
      if s.mode = .root then askInst A c now (B.inst sa.loaded) conf sup.id sup.before s
      else askInstSim A c now fresh (B.inst sa.loaded) conf s

/-- mdl_controller.cpp:1946-1984: no time to simulate, or the goal is not to be simulated. -/
def act (A : Arith) (c : Ctl) (now : Int) (K : Known) (B : Binds) (a : Acc) (sup : Goal) (opposite : Bool)
    (conf : Rat) : List Eff :=
  match a.r with
  | .weakEnabled | .noRequirement =>
    pursue A c now K (B.lhs a.loaded) (a.r = .weakEnabled) opposite conf sup.id (noSim c sup.id opposite)
      (a.ground.map Entry.id) false
  | _ => askInst A c now (B.inst none) conf sup.id sup.before { noSim c sup.id opposite with isReq := true }

/-- The horizon of the goal; 0 if it has no simulation (mdl_controller.cpp:1854-1857). -/
def Goal.thz (g : Goal) : Int := match g.sim with | some s => s.thz | none => 0

/-- What `abduction_allowed` asks: the end of the forward timings (`none`: they cannot be evaluated) and whether
the values that the backward guards use are there (`ScanBWDGuards`, `Verif.GuardScan`). -/
structure Ready where
  fwdBefore : Option Int
  scans : Bool
deriving DecidableEq, Repr

/-- `abduction_allowed` (mdl_controller.cpp:2685-2696). -/
def Ready.able (r : Ready) (now : Int) : Bool :=
  match r.fwdBefore with
  | none => false
  | some b => if b ≤ now then false else r.scans

/-- `abduce` (mdl_controller.cpp:1848-1985). -/
def abduce (A : Arith) (c : Ctl) (now : Int) (rdy : Ready) (K : Known) (fresh : Target → Bool) (B : Binds) (a sa : Acc)
    (sup : Goal) (opposite : Bool) (conf : Rat) : List Eff :=
  if !rdy.able now then []
  else
    match sup.sim with
    | none => act A c now K B a sup opposite conf
    | some s =>
      if s.thz > c.minThz.tdiv 2 then
        match subSim A c now conf sup.id s (s.thz - c.minThz.tdiv 2) opposite with
        | none => []
        | some s' => simulate A c now K fresh B a sa sup opposite conf s'
      else if s.mode = .root then act A c now K B a sup opposite conf
      else endSim A c now B.raw opposite conf s

/-- How the target of a goal meets the model (mdl_controller.cpp:1795-1820): the right-hand side, positively or
negatively; or it is an instance of the model (and the goal is not for a requirement). -/
inductive Meets | rhs | notRhs | inst | no
deriving DecidableEq, Repr

/-- The part of `reduce` for goals (mdl_controller.cpp:1785-1821). -/
def reduceGoal (A : Arith) (c : Ctl) (now : Int) (rdy : Ready) (K : Known) (fresh : Target → Bool) (B : Binds) (a sa : Acc)
    (sup : Goal) (m : Meets) : List Eff :=
  let conf := A.mul c.rate sup.cfd
  if conf ≤ c.thr then []
  else match m with
    | .no => []
    | .notRhs => abduce A c now rdy K fresh B a sa sup true conf
    | .rhs | .inst => abduce A c now rdy K fresh B a sa sup false conf

/-! ## When a requirement arrives -/

/-- `check_imdl` (mdl_controller.cpp:2261-2283) for a goal for an instance, of simulation `s` and confidence
`conf`: what happens, and whether the monitor is done. -/
def check (A : Arith) (c : Ctl) (now : Int) (K : Known) (B : Binds) (a : Acc) (s : Sim) (conf : Rat) : List Eff × Bool :=
  match a.r with
  | .weakEnabled | .noRequirement =>
    if (B.lhs a.loaded).isSome then
      (pursue A c now K (B.lhs a.loaded) (a.r = .weakEnabled) s.opposite conf s.sup (noSim c s.sup s.opposite)
        (a.ground.map Entry.id) false, true)
    else ([], false)
  | _ => ([], false)

/-- The predicted requirement that is the ground: its simulations, its validities, its consequence
(`get_defeasible_consequence`). -/
structure Ground where
  id : Nat
  sims : List Sim
  validities : List Nat
  consequence : Nat
deriving DecidableEq, Repr

/-- An element of `already_signalled_`. -/
structure Issued where
  t : Target
  sims : List Sim
  validities : List Nat
deriving DecidableEq, Repr

/-- The loop over `already_signalled_` (mdl_controller.cpp:2135-2157): the first that is the same keeps those
validities only that the ground has too; `none`: there is none. -/
def reissue (same : Target → Target → Bool) (t : Target) (vs : List Nat) : List Issued → Option (List Issued)
  | [] => none
  | x :: l =>
    if same t x.t then some ({ x with validities := x.validities.filter (fun v => vs.contains v) } :: l)
    else (reissue same t vs l).map (x :: ·)

/-- `abduce_simulated_lhs` without a simulation, for a ground (mdl_controller.cpp:2129-2181), and the validity added
by the caller (2311-2316). The effects and the new `already_signalled_`. -/
def signal (c : Ctl) (now : Int) (same : Target → Target → Bool) (weak : Bool) (t : Target) (g : Ground)
    (issued : List Issued) : List Eff × List Issued :=
  let vs := g.validities ++ (if weak = true ∧ 0 < c.wr ∧ 0 < c.sr then [g.consequence] else [])
  let eff := injectSim c now now t (.pred t g.sims vs)
  match g.sims with
  | [_] =>
    match reissue same t g.validities issued with
    | some issued' => ([], issued')
    | none => (eff, issued ++ [⟨t, g.sims, vs⟩])
  | _ => (eff, issued)

/-- `check_simulated_imdl` in a simulation of the prediction, with `abduce_simulated_lhs` without one
(mdl_controller.cpp:2286-2320, 2122-2181). `G` gives the data of the ground found. Outer `none`: the ground is
NULL and read. The effects, the new `already_signalled_` of the simulation of the ground, whether it succeeded. -/
def checkSim (A : Arith) (c : Ctl) (now : Int) (K : Known) (same : Target → Target → Bool) (B : Binds) (sa : Acc)
    (G : Entry → Ground) (s : Sim) (conf : Rat) (issued : List Issued) : Option (List Eff × List Issued × Bool) :=
  if sa.r = .weakEnabled ∨ sa.r = .noRequirement then
    match B.lhs sa.loaded with
    | none => some ([], issued, false)
    | some (l, _) =>
      let t := target A l s.opposite conf
      if (K.seen t).isSome ∨ (K.foreseen t).isSome then some ([], issued, true)
      else
        match sa.ground with
        | none => none
        | some e =>
          let r := signal c now same (decide (sa.r = .weakEnabled)) t (G e) issued
          some (r.1, r.2, true)
  else some ([], issued, false)

/-- `check_simulated_imdl` for an actual requirement (mdl_controller.cpp:2296-2305): the branch goes on with a
copy of the simulation, for which `is_requirement_` is false (factory.cpp:711). -/
def checkSimActual (A : Arith) (c : Ctl) (now : Int) (K : Known) (fresh : Target → Bool) (B : Binds) (a : Acc) (s : Sim)
    (conf : Rat) : List Eff × Bool :=
  match a.r with
  | .weakEnabled | .noRequirement =>
    if (B.lhs a.loaded).isSome then
      (pursueSim A c now K fresh (B.lhs a.loaded) s.opposite conf s.sup { s with isReq := false }, true)
    else ([], false)
  | _ => ([], false)

end Verif.Abduce
