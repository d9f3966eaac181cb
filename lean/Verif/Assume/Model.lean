import Verif.Abduce.Model
/-!
# Assumptions

Transcription of `PrimaryMDLController::reduce` around what chaining does, `assume` and `assume_lhs`
(`/repo/r_exec/mdl_controller.cpp:1760-1835, 2576-2650`), and of the test that keeps assumptions from rating models
(`register_pred_outcome`, 2358-2364, called from `/repo/r_exec/p_monitor.cpp:139-149`).

What chaining, the monitors and the binding map answer for an input are members of the input. Objects made elsewhere
are numbered, and so are the assumptions of this model, in the order in which they are made. Steps are not interrupted.
-/
namespace Verif.Assume
open Verif.F32 (Arith)
open Verif.Abduce (Bound Target)
open Verif.Requirements (Status)

/-- An object: made elsewhere, or the `k`-th assumption of this model. -/
inductive Obj | other (n : Nat) | own (k : Nat)
deriving DecidableEq, Repr

/-- How an input meets the right-hand side (`match_bwd_lenient`). -/
inductive Meets | rhs | notRhs | no
deriving DecidableEq, Repr

/-- What is read from the model, the group that hosts it and the settings. -/
structure Mdl where
  isReq : Bool := false
  isReuse : Bool := false
  isCmd : Bool := false
  strength : Rat := 1
  rate : Rat := 1
  thr : Rat := 0
  ref : Int := 0
  upr : Nat := 1
deriving DecidableEq, Repr

/-- An input and what is asked about it: `goal`: a goal of the system itself, not a drive; `pred`: a prediction; `hit`: it
matched the left-hand side; `foretold`, `wanted`: a monitor of a prediction or of a goal took it; `meets`: how it meets
the right-hand side; `timed`: the forward timings can be evaluated; `req`: what the requirements answer; `lhs`: the
left-hand side once the backward guards have been evaluated (`none`: they fail). -/
structure In where
  obj : Obj
  goal : Bool := false
  pred : Bool := false
  cfd : Rat := 1
  hit : Bool := false
  foretold : Bool := false
  wanted : Bool := false
  meets : Meets := .no
  timed : Bool := true
  req : Status := .noRequirement
  lhs : Option Bound := none
deriving DecidableEq, Repr

/-- What happens: a goal is pursued; an input is chained from; the monitors are asked; something is assumed, with the
saliency and the resilience of its view. -/
inductive Eff
  | pursue (o : Obj)
  | chain (o : Obj)
  | predictions (o : Obj)
  | goals (o : Obj)
  | assume (k : Nat) (t : Target) (sln : Rat) (res : Int)
deriving DecidableEq, Repr

/-- `assume_lhs` (mdl_controller.cpp:2608-2649). -/
def assumeLhs (A : Arith) (m : Mdl) (now : Int) (k : Nat) (x : In) (opposite : Bool) (conf : Rat) : Option Eff :=
  if !x.timed then none
  else match x.req with
    | .weakEnabled | .noRequirement =>
      match x.lhs with
      | none => none
      | some b =>
        some (.assume k (Abduce.target A b opposite conf) conf
          (Lifetime.goalRes m.ref m.upr now (if b.before > now then b.before - now else 0)))
    | _ => none

/-- `assume` (mdl_controller.cpp:2576-2606). -/
def assume (A : Arith) (m : Mdl) (now : Int) (k : Nat) (x : In) : Option Eff :=
  if m.isReq || m.isReuse || m.isCmd then none
  else if m.strength = 0 then none
  else if x.pred then none
  else
    let conf := A.mul m.rate x.cfd
    if conf ≤ m.thr then none
    else match x.meets with
      | .notRhs => assumeLhs A m now k x true conf
      | .rhs => assumeLhs A m now k x false conf
      | .no => none

/-- The controller: `assumptions_`, how many assumptions were made, which objects are invalidated. -/
structure State where
  kept : List Nat := []
  made : Nat := 0
  inv : Obj → Bool := fun _ => false
  orphan : Bool := false

/-- The loop over `assumptions_` (mdl_controller.cpp:1770-1781): what is kept, and whether the input is among it. -/
def collect (inv : Obj → Bool) (o : Obj) : List Nat → List Nat × Bool
  | [] => ([], false)
  | k :: l =>
    if inv (.own k) then collect inv o l
    else if Obj.own k = o then (l, true)
    else ((k :: (collect inv o l).1), (collect inv o l).2)

/-- What follows (mdl_controller.cpp:1784-1834). -/
def dispatch (A : Arith) (m : Mdl) (now : Int) (k : Nat) (x : In) : List Eff × Option Eff :=
  if x.goal then ([.pursue x.obj], none)
  else
    let es := [.chain x.obj] ++ (if !x.hit then [.predictions x.obj] else []) ++
      (if x.hit || !x.foretold then [.goals x.obj] else [])
    let wanted := (x.hit || !x.foretold) && x.wanted
    if !x.hit && !x.foretold && !wanted then (es, assume A m now k x) else (es, none)

/-- `reduce` (mdl_controller.cpp:1760-1834). -/
def reduce (A : Arith) (m : Mdl) (now : Int) (s : State) (x : In) : State × List Eff :=
  if s.orphan then (s, [])
  else if s.inv x.obj then (s, [])
  else
    let c := collect s.inv x.obj s.kept
    if c.2 then ({ s with kept := c.1 }, [])
    else
      match dispatch A m now s.made x with
      | (es, none) => ({ s with kept := c.1 }, es)
      | (es, some e) => ({ s with kept := c.1 ++ [s.made], made := s.made + 1 }, es ++ [e])

/-- An input arrives; an object is invalidated; the controller becomes an orphan. -/
inductive Ev
  | input (now : Int) (x : In)
  | gone (o : Obj)
  | orphaned
deriving DecidableEq, Repr

def step (A : Arith) (m : Mdl) (s : State) : Ev → State × List Eff
  | .input now x => reduce A m now s x
  | .gone o => ({ s with inv := fun y => y == o || s.inv y }, [])
  | .orphaned => ({ s with orphan := true }, [])

def run (A : Arith) (m : Mdl) (es : List Ev) : State := es.foldl (fun s e => (step A m s e).1) {}

/-- `register_pred_outcome` (mdl_controller.cpp:2362-2364), called with the confidence of the evidence
(p_monitor.cpp:141, 145): whether the models behind the prediction are rated. -/
def rates (cfd : Rat) : Bool := cfd == 1

end Verif.Assume
