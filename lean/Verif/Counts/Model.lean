import Mathlib.Tactic.Ring
/-!
# Requirement counts

`HLPController::add_requirement`, `remove_requirement`, `invalidate`
(`/repo/r_exec/hlp_controller.cpp:108-134`), `MDLController::add_requirement_to_rhs`,
`remove_requirement_from_rhs` (`/repo/r_exec/mdl_controller.cpp:407-425`),
`PrimaryMDLController::set_secondary` (`:1485-1490`), `PrimaryMDLController::kill_views` (`:2651-2666`),
`SecondaryMDLController::kill_views` (`:2890-2897`) and `View::~View` (`/repo/r_exec/view.cpp:104-108`).

Simplifications: controllers are numbers; a controller whose model is not a requirement, or whose
right-hand side has no controller in the same group, has `rhs = none` (mdl_controller.cpp:322-345); the
views' resilience (`force_res`) is not part of the state.
-/
namespace Verif.Counts

/-- The three counters of a controller (hlp_controller.h:108-110). -/
inductive Kind | strong | weak | total
deriving DecidableEq, Repr

/-- A controller of a requirement model: the controller of its right-hand side, and whether it has been
invalidated, which empties the vector `controllers_` (hlp_controller.cpp:108-112). -/
structure Ctl where
  rhs : Option Nat
  inv : Bool := false
deriving DecidableEq, Repr

/-- A requirement model: strong (an anti-fact) or weak, with its primary and secondary controllers. -/
structure Req where
  strong : Bool
  prim : Ctl
  sec : Ctl
deriving DecidableEq, Repr

structure St where
  cnt : Nat → Kind → BitVec 32
  reqs : List Req

/-- Does the requirement of strength `strong` move the counter `k`? (hlp_controller.cpp:117-121) -/
def hits (strong : Bool) : Kind → Bool
  | .strong => strong
  | .weak => !strong
  | .total => true

/-- `HLPController::add_requirement` (hlp_controller.cpp:114-123) of the controller `r`. -/
def add (s : St) (strong : Bool) (r : Nat) : St :=
  { s with cnt := fun r' k => if r' = r ∧ hits strong k then s.cnt r' k + 1#32 else s.cnt r' k }
/-- `HLPController::remove_requirement` (hlp_controller.cpp:125-134). -/
def remove (s : St) (strong : Bool) (r : Nat) : St :=
  { s with cnt := fun r' k => if r' = r ∧ hits strong k then s.cnt r' k - 1#32 else s.cnt r' k }

/-- `add_requirement_to_rhs` (mdl_controller.cpp:407-415) of a newly created controller. -/
def addToRhs (s : St) (strong : Bool) (c : Ctl) : St :=
  match c.rhs with
  | none => s
  | some r => add s strong r

/-- `remove_requirement_from_rhs` (mdl_controller.cpp:417-425). Reading `controllers_[RHSController]`
of an invalidated controller is out of range: undefined behaviour. -/
def removeFromRhs (s : St) (strong : Bool) (c : Ctl) : Option St :=
  match c.rhs with
  | none => some s
  | some r => if c.inv then none else some (remove s strong r)

def setPrim (q : Req) : Req := { q with prim := { q.prim with inv := true } }
def setSec (q : Req) : Req := { q with sec := { q.sec with inv := true } }

/-- Something that happens to requirement models. -/
inductive Op
  /-- a requirement model is injected: both controllers are made and `set_secondary` is called
  (mdl_controller.cpp:1485-1490, group.cpp:1303-1314) -/
  | create (strong : Bool) (primRhs secRhs : Option Nat)
  /-- `PrimaryMDLController::kill_views` of model `i` -/
  | killPrim (i : Nat)
  /-- `SecondaryMDLController::kill_views` of model `i` -/
  | killSec (i : Nat)
  /-- the view of the primary (secondary) controller goes away (view.cpp:104-108) -/
  | dropPrim (i : Nat)
  | dropSec (i : Nat)
deriving DecidableEq, Repr

def step (s : St) : Op → Option St
  | .create g p q =>
    let s := addToRhs s g ⟨p, false⟩
    let s := addToRhs s g ⟨q, false⟩
    some { s with reqs := s.reqs ++ [⟨g, ⟨p, false⟩, ⟨q, false⟩⟩] }
  | .killPrim i =>
    match s.reqs[i]? with
    | none => some s
    | some q =>
      if q.prim.inv then some s
      else (removeFromRhs s q.strong q.prim).bind fun s1 =>
        (removeFromRhs s1 q.strong q.sec).bind fun s2 =>
          some { s2 with reqs := s2.reqs.set i (setPrim q) }
  | .killSec i =>
    match s.reqs[i]? with
    | none => some s
    | some q =>
      (removeFromRhs s q.strong q.sec).bind fun s1 =>
        (removeFromRhs s1 q.strong q.prim).bind fun s2 =>
          some { s2 with reqs := s2.reqs.set i (setSec q) }
  | .dropPrim i =>
    match s.reqs[i]? with
    | none => some s
    | some q => some { s with reqs := s.reqs.set i (setPrim q) }
  | .dropSec i =>
    match s.reqs[i]? with
    | none => some s
    | some q => some { s with reqs := s.reqs.set i (setSec q) }

/-- All counters start at 0 (hlp_controller.cpp:93). -/
def start : St := ⟨fun _ _ => 0#32, []⟩

def run : List Op → Option St
  | [] => some start
  | op :: h => (run h).bind fun s => step s op

end Verif.Counts
