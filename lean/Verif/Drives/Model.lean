import Verif.Abduce.Model
import Verif.Monitors.Model
/-!
# Drives

Transcription of `TopLevelMDLController::reduce` for drives, `abduce`, `abduce_lhs`, `register_goal_outcome`,
`register_drive_outcome` (`/repo/r_exec/mdl_controller.cpp:1271-1377, 1380-1448`), of `PMDLController::inject_goal`
(1165-1181) with `HLPController::inject_notification_into_out_groups`, `get_out_group_count` and `get_out_group`
(`/repo/r_exec/hlp_controller.cpp:156-167, 300-309`).

Targets, simulations and what is known are those of `Verif.Abduce`; the monitors are those of `Verif.Monitors`.
The right-hand side of a top-level model is a drive; what the binding map makes of the left-hand side once the guards
have been evaluated is a parameter (`none`: they fail). `get_sim_thz` is a parameter too (`Verif.SimHorizon`).
`none` as the result of a function is undefined behaviour.
-/
namespace Verif.Drives
open Verif.F32 (Arith)
open Verif.Abduce (Target Sim Bound Known)

/-- What is read from a top-level model and its controller. -/
structure Top where
  id : Nat
  rate : Rat := 1
  thr : Rat := 0
  ref : Int := 0
  upr : Nat := 1
  host : Nat
  groups : List Nat
  thz : Int → Int → Int

/-- A drive: the fact of a goal, with the confidence of its target. -/
structure Drive where
  id : Nat
  cfd : Rat
deriving DecidableEq, Repr

/-- How a drive meets the model (1284-1309): the right-hand side; or it is an instance of the model, and not for a
requirement. -/
inductive Meets | rhs | inst | no
deriving DecidableEq, Repr

/-- What happens: the outcome of a drive shown in a group; a goal shown; notifications with the instance of the model
and the drive; a monitor; the outcome of a goal shown with its evidence; the absence of the target shown. -/
inductive Eff
  | outcome (grp drive : Nat) (success : Bool)
  | goal (grp : Nat) (t : Target) (s : Sim) (res : Int)
  | rdx (grp i drive : Nat) (t : Target) (s : Sim)
  | watch (t : Target) (s : Sim) (deadline simEnd : Int) (evidence : Option Nat)
  | result (grp goal : Nat) (success : Bool) (evidence : Option Nat) (res : Int)
  | absent (grp goal : Nat)
deriving DecidableEq, Repr

/-- `register_drive_outcome` (mdl_controller.cpp:1429-1446), after invalidating the drive. `out_group_count` is a
`uint16`: without output groups it is 65535 and a word beyond the code of the model is read. -/
def driveOutcome (c : Top) (drive : Nat) (success : Bool) : Option (List Eff) :=
  c.groups.getLast?.map fun g => [.outcome g drive success]

/-- `inject_goal` (mdl_controller.cpp:1165-1180): `created` is the end of the fact of the goal. All output groups get
the notification; `get_rdx_out_group_count` (mdl_controller.h:385) is not used. -/
def injectGoal (c : Top) (now created : Int) (i drive : Nat) (t : Target) (s : Sim) : List Eff :=
  .goal c.host t s (Lifetime.goalRes c.ref c.upr now (created - now)) :: c.groups.map fun g => .rdx g i drive t s

/-- `abduce_lhs` (mdl_controller.cpp:1350-1371). -/
def pursue (c : Top) (now : Int) (i drive : Nat) (t : Target) (evidence : Option Nat) : List Eff :=
  let thz := c.thz now t.before
  let s : Sim := { mode := .root, thz := thz, sup := drive, root := c.id }
  (if evidence.isNone then injectGoal c now now i drive t s else []) ++ [.watch t s t.before (now + thz) evidence]

/-- `bind_pattern(get_lhs())` (mdl_controller.cpp:1325), with the confidence `cfd`. -/
def bound (b : Bound) (cfd : Rat) : Target :=
  { obj := .thing b.n, positive := b.positive, after := b.after, before := b.before, cfd := cfd }

/-- The evidence that is kept from `check_predicted_evidences` (mdl_controller.cpp:1341-1348). -/
def foreseen (K : Known) (t : Target) : Option Nat :=
  match K.foreseen t with | some (e, true) => some e | _ => none

/-- `abduce` (mdl_controller.cpp:1317-1348). The evidence is looked for with the confidence `pat` of the pattern, the
predicted one with the confidence of the goal. -/
def abduce (A : Arith) (c : Top) (now : Int) (K : Known) (lhs : Option (Bound × Nat)) (pat : Rat) (drive : Nat)
    (conf : Rat) : Option (List Eff) :=
  match lhs with
  | none => some []
  | some (b, i) =>
    match K.seen (bound b pat) with
    | some (_, success) => driveOutcome c drive success
    | none =>
      let t := bound b (A.store conf)
      some (pursue c now i drive t (foreseen K t))

/-- `reduce` for a drive that is not invalidated (mdl_controller.cpp:1276-1310). -/
def reduceDrive (A : Arith) (c : Top) (now : Int) (K : Known) (lhs : Option (Bound × Nat)) (pat : Rat) (d : Drive)
    (m : Meets) : Option (List Eff) :=
  let conf := A.mul c.rate d.cfd
  if conf ≤ c.thr then some []
  else match m with
    | .no => some []
    | .rhs | .inst => abduce A c now K lhs pat d.id conf

/-- `register_goal_outcome` (mdl_controller.cpp:1380-1427), after invalidating the goal. -/
def goalOutcome (c : Top) (now : Int) (goal drive : Nat) (success : Bool) (evidence : Option Nat) : Option (List Eff) :=
  match driveOutcome c drive success with
  | none => none
  | some es =>
    some (c.groups.dropLast.flatMap (fun g =>
      .result g goal success evidence (Lifetime.goalRes c.ref c.upr now 0) ::
        (if success = false ∧ evidence = none then [.absent g goal] else [])) ++ es)

/-! ## Drives and their monitors

Any number of top-level models may pursue any number of drives. A monitor keeps the time on its own, since only the
order of events matters between monitors. The goal of a monitor is invalidated if its drive is
(`/repo/r_exec/factory.cpp:676-686`). -/

/-- What a model makes of a drive: nothing, the outcome, or a goal and its monitor. -/
inductive Ans
  | idle
  | known (success : Bool)
  | pursue (p : Monitors.Params)
deriving DecidableEq, Repr

/-- A goal made for a drive, with its monitor. -/
structure Hunt where
  drive : Nat
  p : Monitors.Params
  s : Monitors.State
deriving DecidableEq, Repr

/-- `dinv`: drives invalidated; `told`: the outcomes shown, the latest first. -/
structure World where
  dinv : Nat → Bool := fun _ => false
  hunts : List Hunt := []
  told : List (Nat × Bool) := []

/-- A drive arrives at a model; something happens around the `i`-th monitor; a drive is invalidated by somebody else. -/
inductive Ev
  | drive (d : Nat) (a : Ans)
  | mon (i : Nat) (e : Monitors.Ev)
  | gone (d : Nat)
deriving DecidableEq, Repr

/-- `register_drive_outcome`: the drive is invalidated and the outcome shown, without asking whether it was before. -/
def tell (w : World) (d : Nat) (success : Bool) : World :=
  { w with dinv := fun x => x == d || w.dinv x, told := (d, success) :: w.told }

/-- The outcome that a monitor registered in a step, if any. -/
def latest (s s' : Monitors.State) : Option Bool :=
  if s'.outs.length = s.outs.length then none else s'.outs.head?.map Monitors.Report.success

/-- The monitor with the flag that it sees. -/
def Hunt.view (h : Hunt) (w : World) : Monitors.State := { h.s with inv := h.s.inv || w.dinv h.drive }

/-- What is read first: whether the drive (mdl_controller.cpp:1273) or the goal of the monitor is invalidated. -/
def flag (w : World) : Ev → Bool
  | .drive d _ => w.dinv d
  | .mon i _ => match w.hunts[i]? with | some h => (h.view w).inv | none => false
  | .gone _ => false

/-- One event, `saw` being what was read. -/
def act (saw : Bool) (w : World) : Ev → World
  | .drive d a =>
    if saw then w
    else match a with
      | .idle => w
      | .known b => tell w d b
      | .pursue p => { w with hunts := w.hunts ++ [⟨d, p, Monitors.init p⟩] }
  | .mon i e =>
    match w.hunts[i]? with
    | none => w
    | some h =>
      let s' := Monitors.act h.p saw (h.view w) e
      let w' := { w with hunts := w.hunts.set i { h with s := s' } }
      match latest h.s s' with
      | none => w'
      | some b => tell w' h.drive b
  | .gone d => { w with dinv := fun x => x == d || w.dinv x }

/-- Uninterrupted events. -/
def step (w : World) (e : Ev) : World := act (flag w e) w e
def run (es : List Ev) : World := es.foldl step {}

/-- A core reads for an event, or goes on with what it read last. -/
inductive Phase | look (core : Nat) (e : Ev) | act (core : Nat) (e : Ev)
def fineStep (c : World × (Nat → Bool)) : Phase → World × (Nat → Bool)
  | .look k e => (c.1, fun x => if x = k then flag c.1 e else c.2 x)
  | .act k e => (act (c.2 k) c.1 e, c.2)
def fine (ph : List Phase) : World := (ph.foldl fineStep ({}, fun _ => false)).1

end Verif.Drives
