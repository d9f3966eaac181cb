import Verif.Abduce.Model
/-!
# Goals for composite states

Transcription of the part of `CSTController::reduce` that deals with goals
(`/repo/r_exec/cst_controller.cpp:563-582`), of `abduce_simulated` (609-631), `abduce` (633-690) and
`inject_goal` (692-722), with `Sim::register_goal_target` (`/repo/r_exec/factory.cpp:785-804`) and
`check_predicted_evidences` (`/repo/r_exec/hlp_controller.cpp:231-259`).

Binding maps are not opened: the members bound with a map are given.  The clock does not advance during
a call, and nobody else registers goals of the simulation.  `none` is a null pointer that is followed.
-/
namespace Verif.Subgoal
open Verif.F32 (Arith)
open Verif.Abduce (Sim Mode)

/-- A fact or an |fact about the object `n`, as the target of a goal. -/
structure Target where
  n : Nat
  positive : Bool
  after : Int
  before : Int
  cfd : Rat
deriving DecidableEq, Repr

/-- A member bound with a map (`bind_pattern`), and whether its object matches an axiom. -/
structure Member where
  t : Target
  isAxiom : Bool := false
deriving DecidableEq, Repr

/-- What the controller knows of a target: whether there is evidence, for (`true`) or against it; the
predictions that are evidence, with their confidence, in the order of the list. -/
structure Known where
  seen : Target → Option Bool
  foreseen : Target → List (Bool × Rat)

/-- `check_predicted_evidences` (hlp_controller.cpp:231-259): the first that is more confident than the
target. -/
def Known.predicted (K : Known) (t : Target) : Option Bool :=
  ((K.foreseen t).find? fun e => decide (t.cfd < e.2)).map (·.1)

/-- The goal: its identity, whether its target is a fact, the confidence of the target, its simulation,
the actor. -/
structure Goal where
  id : Nat
  positive : Bool := true
  cfd : Rat
  sim : Option Sim
  actor : Nat := 0
deriving DecidableEq, Repr

/-- What is injected: a goal (with target, actor, simulation, time of injection, saliency, resilience); the
notification of it (with the super-goal). -/
inductive Eff
  | goal (t : Target) (actor : Nat) (s : Sim) (ijt : Int) (sal : Rat) (res : Int)
  | rdx (sup : Nat) (t : Target)
deriving DecidableEq, Repr

/-- The simulation of the sub-goals (cst_controller.cpp:644-648). -/
def subSim (A : Arith) (now : Int) (sup : Nat) (s : Sim) (opposite : Bool) : Sim :=
  if s.mode = .root then
    { mode := if opposite then .mandatory else .optional, thz := s.thz, sup := sup, opposite := opposite, root := s.root
      sol := s.sol, solCfd := A.store s.solCfd, solBefore := now + s.thz }
  else
    { mode := s.mode, thz := s.thz, sup := sup, opposite := opposite, root := s.root, sol := s.sol
      solCfd := A.store s.solCfd, solBefore := s.solBefore }

/-- `set_opposite` if the goal is for an |fact (cst_controller.cpp:663-664). -/
def want (opposite : Bool) (m : Member) : Target := { m.t with positive := m.t.positive != opposite }

/-- The condition in `register_goal_target` (factory.cpp:797): times are not compared. -/
def like (same : Nat → Nat → Bool) (t u : Target) : Bool := t.positive == u.positive && same t.n u.n

/-- `register_goal_target` (factory.cpp:785-804); the list is that of the root simulation, `none` if there is
no root simulation. -/
def register (same : Nat → Nat → Bool) (reg : Option (List Target)) (t : Target) : Bool × Option (List Target) :=
  match reg with
  | none => (true, none)
  | some l => if l.any (like same t) then (false, some l) else (true, some (l ++ [t]))

/-- `inject_goal` (cst_controller.cpp:692-722): the confidence is set after the target is registered. -/
def inject (A : Arith) (same : Nat → Nat → Bool) (now : Int) (g : Goal) (s : Sim) (reg : Option (List Target)) (t : Target) :
    List Eff × Option (List Target) :=
  match register same reg t with
  | (false, reg) => ([], reg)
  | (true, reg) =>
    let t := { t with cfd := A.store g.cfd }
    (.goal t g.actor s now g.cfd 1 :: (if s.mode = .root then [.rdx g.id t] else []), reg)

/-- One turn of the loop over the members (cst_controller.cpp:653-688). -/
def member (A : Arith) (same : Nat → Nat → Bool) (K : Known) (now : Int) (g : Goal) (s : Sim) (opposite : Bool)
    (reg : Option (List Target)) (m : Member) : List Eff × Option (List Target) :=
  if m.isAxiom then ([], reg)
  else
    let t := want opposite m
    match K.seen t with
    | some _ => ([], reg)
    | none => match K.predicted t with
      | some true => ([], reg)
      | _ => inject A same now g s reg t

/-- The loop. -/
def loop (A : Arith) (same : Nat → Nat → Bool) (K : Known) (now : Int) (g : Goal) (s : Sim) (opposite : Bool) :
    Option (List Target) → List Member → List Eff × Option (List Target)
  | reg, [] => ([], reg)
  | reg, m :: ms =>
    let (es, reg) := member A same K now g s opposite reg m
    let (fs, reg) := loop A same K now g s opposite reg ms
    (es ++ fs, reg)

/-- `abduce` (cst_controller.cpp:633-690): the simulation of the goal is followed without a test. -/
def abduce (A : Arith) (same : Nat → Nat → Bool) (K : Known) (now : Int) (g : Goal) (reg : Option (List Target)) (ms : List Member) :
    Option (List Eff × Option (List Target)) :=
  match g.sim with
  | none => none
  | some s => some (loop A same K now g (subSim A now g.id s (!g.positive)) (!g.positive) reg ms)

/-- An overlay: whether it is simulated; whether it can still match (not invalidated, deadline not passed); the
members bound with the bindings of the goal into which those of the overlay have been matched, if they match. -/
structure Ov where
  simulated : Bool := false
  live : Bool := true
  bound : Option (List Member)
deriving DecidableEq, Repr

/-- `abduce_simulated` (cst_controller.cpp:609-631). -/
def abduceSim (A : Arith) (same : Nat → Nat → Bool) (K : Known) (now : Int) (g : Goal) :
    Option (List Target) → List Ov → Option (List Eff × Option (List Target))
  | reg, [] => some ([], reg)
  | reg, o :: os =>
    if o.simulated then abduceSim A same K now g reg os
    else match o.bound with
      | none => abduceSim A same K now g reg os
      | some ms => match abduce A same K now g reg ms with
        | none => none
        | some (es, reg) => match abduceSim A same K now g reg os with
          | none => none
          | some (fs, reg) => some (es ++ fs, reg)

/-- What is asked of a goal before it is pursued (cst_controller.cpp:563-576): of the system itself and not a
drive; for an instance of this composite state; no model has it as its requirement; the backward guards hold. -/
structure Asked where
  self : Bool := true
  drive : Bool := false
  mine : Bool := true
  requirements : Nat := 0
  guards : Bool := true
deriving DecidableEq, Repr

/-- `is_simulation` (factory.h:573-576). -/
def Goal.simulated (g : Goal) : Bool := match g.sim with | none => false | some s => s.thz != 0

/-- The part of `reduce` for goals (cst_controller.cpp:563-582); `own` are the members bound with the bindings of
the goal. -/
def reduceGoal (A : Arith) (same : Nat → Nat → Bool) (K : Known) (now : Int) (a : Asked) (g : Goal) (reg : Option (List Target))
    (own : List Member) (os : List Ov) : Option (List Eff × Option (List Target)) :=
  if a.self && !a.drive && a.mine && a.requirements == 0 && a.guards then
    if g.simulated then abduceSim A same K now g reg os else abduce A same K now g reg own
  else some ([], reg)

end Verif.Subgoal
