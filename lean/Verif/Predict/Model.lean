import Verif.Requirements.Model
import Verif.Lifetime.Model
/-!
# Forward chaining

Transcription of `PrimaryMDLOverlay::reduce` and `check_simulated_chaining`, `SecondaryMDLOverlay::reduce`,
`PrimaryMDLController::predict` and `inject_prediction`, `SecondaryMDLController::predict`,
`PrimaryMDLController::store_requirement`, `SecondaryMDLController::store_requirement`
(`/repo/r_exec/mdl_controller.cpp:111-300, 1492-1572, 1584-1757, 2786-2819`) and of
`HLPController::inject_prediction` (`/repo/r_exec/hlp_controller.cpp:191-203`).

What the requirements answer is `Verif.Requirements.Acc`, of `retrieve_imdl_fwd` for the input and of
`retrieve_simulated_imdl_fwd` for each of its simulations. Binding maps are not opened here: `bind` gives,
for the entry whose match made a binding map (`none`: the map made by matching the left-hand side), what
the guards and the right-hand side become with it. Effects are listed in the order in which they happen.
That another thread may invalidate the controller meanwhile (1626, 2798) is left out.
-/
namespace Verif.Predict
open Verif.F32 (Arith)
open Verif.Requirements (Status Acc Res Entry fires)

/-- `prediction->get_target()->get_cfd()`, its simulations and `defeasible_validities_`
(r_exec/factory.h:480-520). -/
structure Guess where
  cfd : Rat
  sims : List Nat
  validities : List Nat := []
deriving DecidableEq, Repr

/-- The input fact; `pred` is there if its object is a prediction (`get_pred()`). -/
structure In where
  id : Nat
  cfd : Rat
  pred : Option Guess := none
deriving DecidableEq, Repr

/-- `prediction->get_simulations_size() > 0`, false for an actual input (mdl_controller.cpp:115-125). -/
def In.simulated (x : In) : Bool :=
  match x.pred with | some g => !g.sims.isEmpty | none => false

/-- What is read from the model, its controller and the group that hosts it. `thr` is the group's
`sln_thr`, `ref` and `upr` are used for lifetimes (`Verif.Lifetime.goalRes`). -/
structure Mdl where
  isReq : Bool := false
  isCmd : Bool := false
  isReuse : Bool := false
  hasTpl : Bool := false
  rate : Rat := 1
  wr : Nat := 0
  sr : Nat := 0
  thr : Rat := 0
  ref : Int := 0
  upr : Nat := 1
deriving DecidableEq, Repr

/-- What a binding map makes of the right-hand side (`bind_pattern(rhs_)`: which object, whether a fact or
an |fact, its end) and of the instance of the model. -/
structure Bound where
  rhs : Nat
  positive : Bool := true
  before : Int
  inst : Nat
deriving DecidableEq, Repr

/-- A production: fact, prediction, target. -/
structure Made where
  rhs : Nat
  positive : Bool
  before : Int
  cfd : Rat
  sims : List Nat := []
  grounds : List Nat := []
  validities : List Nat := []
deriving DecidableEq, Repr

inductive Grp | primary | secondary
deriving DecidableEq, Repr

/-- The effects: views injected with a prediction or with an instance of the model (as a fact, or as the
prediction of a fact with simulations and validities; `wre` is its weak-requirement-enabled member);
mk.rdx notifications; requirements given to the controller of the right-hand side; monitors (`rdx`: made
with a mk.rdx; `rates`: failures count); `register_requirement`; evidence stored. -/
inductive Eff
  | predict (p : Made) (sln : Rat) (res : Int)
  | inst (i : Nat) (wre : Bool) (wrap : Option (List Nat × List Nat)) (grp : Grp) (sln : Rat) (res : Int)
  | rdx (input : Nat) (ground : Option Nat) (p : Made)
  | require (p : Made) (allowed : Bool)
  | monitor (p : Made) (rdx : Bool) (rates : Bool)
  | active (p : Made)
  | evidence (input : Nat) (predicted : Bool)
deriving DecidableEq, Repr

/-- `ground_` of a binding result. -/
def Res.ground : Option Res → Option Nat
  | some (.weak e) => some e.id
  | some (.strong g) => g.map Entry.id
  | none => none

/-- The confidence (mdl_controller.cpp:1600-1616). `none`: a prediction, and chaining is not allowed. -/
def confidence (A : Arith) (m : Mdl) (x : In) (allowed : Bool) : Option Rat :=
  match x.pred with
  | some g => if allowed then some (A.mul g.cfd m.rate) else none
  | none => some (if allowed then A.mul x.cfd m.rate else 0)

/-- The production (mdl_controller.cpp:1618-1635, 1694-1706): a simulated prediction has the simulations
and the validities of the input, and the validity of the ground if a strong requirement could defeat it. A
prediction made from a prediction records its grounds. -/
def production (A : Arith) (m : Mdl) (x : In) (b : Bound) (ground : Option Nat) (c : Rat) : Made :=
  { rhs := b.rhs, positive := b.positive, before := b.before, cfd := A.store c
    sims := match x.pred with | some g => g.sims | none => []
    grounds := if x.pred.isSome && !x.simulated then x.id :: ground.toList else []
    validities := if x.simulated then
        (match x.pred with | some g => g.validities | none => []) ++
          (if !m.isReq && decide (0 < m.wr) && decide (0 < m.sr) then ground.toList else [])
      else [] }

/-- `PrimaryMDLController::predict` (mdl_controller.cpp:1584-1737). `done` is `already_predicted`, `same`
is `_Fact::MatchObject(·, ·, true)`; `req`: some requirement matched (`r_p`, line 1098). Line 1687 injects
the instance with the group of the model as destination and the secondary group as origin, contrary to the
comment beside it. -/
def predict (A : Arith) (m : Mdl) (now : Int) (same : Nat → Nat → Bool) (x : In) (allowed req wre : Bool)
    (b : Bound) (ground : Option Nat) (done : List Nat) : List Eff × List Nat :=
  if done.any (same b.rhs) then ([], done)
  else
    match confidence A m x allowed with
    | none => ([], done)
    | some c =>
      let p := production A m x b ground c
      if m.isReq then ([.rdx x.id none p, .require p allowed], done)
      else if !x.simulated then
        let reg := if req then [Eff.active p] else []
        if !allowed then (reg ++ [.monitor p false false], done)
        else if b.before ≤ now then (reg, done)
        else
          let res := Lifetime.goalRes m.ref m.upr now (b.before - now)
          if x.pred.isSome then
            if m.thr < c then
              (reg ++ [.predict p (A.store c) res, .inst b.inst wre (some ([], [])) .primary 1 1],
                done ++ [b.rhs])
            else (reg, done)
          else
            (reg ++ (if m.thr < c then [.predict p (A.store c) res, .inst b.inst wre none .primary 1 1,
                .rdx x.id ground p] else []) ++
              [.monitor p true (decide (m.thr < c)), .inst b.inst wre none .primary (A.store c) 1], done)
      else if m.thr < c then
        ([.predict p (A.store c) 1] ++
          (if m.isCmd || m.isReuse then
            [.inst b.inst wre (some (p.sims, match x.pred with | some g => g.validities | none => []))
              .primary (A.store c) 1] else []), done ++ [b.rhs])
      else ([], done)

/-- The loop over the binding results (mdl_controller.cpp:182-200): what is done, what has been predicted,
and whether the guards held once. -/
def loop (A : Arith) (m : Mdl) (now : Int) (same : Nat → Nat → Bool) (x : In) (allowed req wre : Bool)
    (bind : Option Res → Option Bound) : List (Option Res) → List Nat → List Eff × Bool
  | [], _ => ([], false)
  | r :: t, done =>
    match bind r with
    | none => loop A m now same x allowed req wre bind t done
    | some b =>
      let (e, done') := predict A m now same x allowed req wre b (Res.ground r) done
      (e ++ (loop A m now same x allowed req wre bind t done').1, true)

/-- `check_simulated_chaining` (mdl_controller.cpp:217-231): the simulations in turn, up to the first in
which chaining is allowed; the results of all those asked are kept. -/
def simCheck (ans : Nat → Acc) : List Nat → Bool × List Res
  | [] => (false, [])
  | s :: t =>
    if fires (ans s).r then (true, (ans s).results)
    else ((simCheck ans t).1, (ans s).results ++ (simCheck ans t).2)

/-- The simulations of the input. -/
def In.sims (x : In) : List Nat := match x.pred with | some g => g.sims | none => []

/-- If the input is simulated, chaining needs a simulation that allows it. -/
def simGate (x : In) (ans : Nat → Acc) (wre : Bool) : Option (Bool × Bool × List Res) :=
  if (simCheck ans x.sims).1 then some (true, wre, (simCheck ans x.sims).2) else none

/-- The switch on the status (mdl_controller.cpp:142-178; the cases fall through): whether chaining is
allowed, the weak-requirement-enabled member, and the binding results; `none`: nothing is predicted. -/
def gate (m : Mdl) (x : In) (a : Acc) (ans : Nat → Acc) : Option (Bool × Bool × List Res) :=
  match a.r with
  | .weakDisabled | .strongNoWeak =>
    if x.simulated then simGate x ans false
    else if m.hasTpl then none else some (false, false, a.results)
  | .noRequirement => if x.simulated then simGate x ans false else some (true, false, a.results)
  | .strongDisabledWeak =>
    if x.simulated then simGate x ans a.wrEnabled else some (false, a.wrEnabled, a.results)
  | .weakEnabled => some (true, a.wrEnabled, a.results)

/-- mdl_controller.cpp:179-181: without results the map made by matching the left-hand side is used. -/
def cands (rs : List Res) : List (Option Res) := if rs.isEmpty then [none] else rs.map some

/-- Some requirement matched (mdl_controller.cpp:1098). -/
def matched (a : Acc) : Bool := !(a.weak.isEmpty && a.strong.isEmpty)

inductive Matched | positive | negative | failure
deriving DecidableEq, Repr

/-- `store_evidence` (hlp_overlay.cpp:304-312), unless a requirement triggered the reduction
(mdl_controller.cpp:205, 208). -/
def stored (x : In) (triggered : Bool) : List Eff :=
  if triggered then []
  else match x.pred with
    | some g => if g.sims.isEmpty then [.evidence x.id true] else []
    | none => [.evidence x.id false]

/-- `PrimaryMDLOverlay::reduce` (mdl_controller.cpp:111-215). -/
def reduce (A : Arith) (m : Mdl) (now : Int) (same : Nat → Nat → Bool) (x : In) (lhs : Matched)
    (triggered : Bool) (bind : Option Res → Option Bound) (a : Acc) (ans : Nat → Acc) : List Eff × Bool :=
  match lhs with
  | .failure => ([], false)
  | .negative => (stored x triggered, false)
  | .positive =>
    match gate m x a ans with
    | none => (stored x triggered, false)
    | some (allowed, wre, rs) =>
      let (e, ok) := loop A m now same x allowed (matched a) wre bind (cands rs) []
      (e ++ stored x triggered, ok)

/-! ## The secondary controller -/

/-- `SecondaryMDLController::predict` (mdl_controller.cpp:2787-2808), called with `true` for
`chaining_was_allowed` whatever the status (286). The bound right-hand side keeps the confidence `cfd` that
binding gives it. -/
def silent (m : Mdl) (req : Bool) (cfd : Rat) (b : Bound) : List Eff :=
  let p : Made := { rhs := b.rhs, positive := b.positive, before := b.before, cfd := cfd }
  (if req then [.active p] else []) ++
    (if m.isReq then [.require p true] else [.monitor p false false])

/-- `SecondaryMDLOverlay::reduce` (mdl_controller.cpp:241-298). -/
def reduceSecondary (m : Mdl) (cfd : Rat) (lhs : Matched) (bind : Option Res → Option Bound) (a : Acc) :
    List Eff × Bool :=
  match lhs with
  | .positive =>
    if m.hasTpl && (a.r = .weakDisabled || a.r = .strongNoWeak || a.r = .noRequirement) then ([], false)
    else
      let bs := (cands a.results).filterMap bind
      (bs.flatMap (silent m (matched a) cfd), !bs.isEmpty)
  | _ => ([], false)

/-! ## Requirements given to a controller -/

/-- Where a requirement is kept. -/
inductive Cache | positive | negative | simPositive | simNegative
deriving DecidableEq, Repr

/-- What `store_requirement` does: the requirement is kept, by the primary controller or the secondary one;
a consequence is withdrawn; r-monitors are told and cached evidence is reduced again. -/
inductive Kept
  | keep (at_ : Grp) (c : Cache) (allowed : Bool)
  | withdraw (weak : Nat)
  | wake (at_ : Grp)
deriving DecidableEq, Repr

/-- An entry of `simulated_requirements_.positive_evidences_`: whether it has a defeasible consequence, its
simulations, its confidence. -/
structure Weak where
  id : Nat
  used : Bool
  sims : List Nat
  cfd : Rat
deriving DecidableEq, Repr

/-- The entries defeated (mdl_controller.cpp:1513-1534); `contra` is the outcome of
`match_fwd_lenient(_f_imdl, f_imdl) == MATCH_SUCCESS_NEGATIVE`. -/
def defeated (p : Made) (contra : Nat → Bool) (ws : List Weak) (s : Nat) : List Weak :=
  ws.filter (fun e => e.used && e.sims.contains s && contra e.id && decide (e.cfd ≤ p.cfd))

/-- `SecondaryMDLController::store_requirement` (mdl_controller.cpp:2810-2819). -/
def storeSecondary (p : Made) (allowed : Bool) : List Kept :=
  if p.positive then [.keep .secondary .positive allowed, .wake .secondary]
  else [.keep .secondary .negative allowed]

/-- `PrimaryMDLController::store_requirement` (mdl_controller.cpp:1492-1572). -/
def storeRequirement (m : Mdl) (contra : Nat → Bool) (ws : List Weak) (p : Made) (allowed : Bool) : List Kept :=
  let sim := !p.sims.isEmpty
  [.keep .primary (match p.positive, sim with
    | true, true => .simPositive | true, false => .positive
    | false, true => .simNegative | false, false => .negative) allowed] ++
  (match p.sims with
    | [s] => if !p.positive && decide (0 < m.wr) && decide (0 < m.sr) then
        (defeated p contra ws s).map (fun e => .withdraw e.id) else []
    | _ => []) ++
  (if p.positive then [.wake .primary] else []) ++
  (if !sim then storeSecondary p allowed else [])

end Verif.Predict
