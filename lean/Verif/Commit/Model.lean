import Verif.Abduce.Model
/-!
# What is committed to after a simulation

Transcription of `_GMonitor::store_simulated_outcome`, `invalidate_sim_outcomes`, `GMonitor::commit`,
`SGMonitor::commit` (`/repo/r_exec/g_monitor.cpp:112-265, 487-523`), the parts of `reduce` that gather outcomes
(283-297, 437-455, 535-549, 614-630), `Goal::get_strength` (`/repo/r_exec/factory.h:581-584`) and
`PrimaryMDLController::abduce_no_simulation` (`/repo/r_exec/mdl_controller.cpp:1979-2014`).

Simulations are numbers, with their data in a table `W`. Of a prediction is kept what is asked of it.
`is_invalidated` of a simulation is a flag, that of a prediction depends on those of its simulations
(factory.cpp:576-610, `Verif.Invalidation`); what else may invalidate either does not change meanwhile.
Divisions by zero of positive numbers are infinite; confidences are not negative.
-/
namespace Verif.Commit
open Verif.F32 (Arith)
open Verif.Abduce (Mode)

/-- What is read from a `Sim`: `ctrl` is `solution_controller_`, `sup` `get_f_super_goal()`. -/
structure SimD where
  mode : Mode
  cfd : Rat
  before : Int
  ctrl : Nat
  sup : Nat
  opposite : Bool := false
  root : Nat
deriving DecidableEq, Repr

/-- The target of a goal. -/
structure Tgt where
  cfd : Rat
  before : Int
deriving DecidableEq, Repr

/-- A prediction: the simulations it belongs to, whether it is invalidated for other reasons, whether it is of a fact
and not of an |fact, and, if of the success of a goal, the target of that goal. -/
structure Outcome where
  id : Nat
  sims : List Nat
  dead : Bool := false
  success : Bool
  goal : Option Tgt
deriving DecidableEq, Repr

/-- A `float32` that may not be finite. -/
inductive Ext | num (q : Rat) | inf | nan
deriving DecidableEq, Repr

/-- `>` on these. -/
def Ext.gt : Ext → Ext → Bool
  | .num a, .num b => decide (b < a)
  | .inf, .num _ => true
  | _, _ => false

/-- A confidence over a number of microseconds (factory.h:583, g_monitor.cpp:243-244): the latter is converted to
`float32` first. -/
def over (A : Arith) (cfd : Rat) (d : Int) : Ext :=
  if d = 0 then (if 0 < cfd then .inf else .nan) else .num (A.div cfd (A.add d 0))

/-- `Goal::get_strength` (factory.h:581-584). -/
def Tgt.strength (A : Arith) (now : Int) (t : Tgt) : Ext := over A t.cfd (t.before - now)

/-- The rank of a solution (g_monitor.cpp:243). -/
def SimD.rank (A : Arith) (now : Int) (s : SimD) : Ext := over A s.cfd (s.before - now)

/-- `SolutionList` (g_monitor.h:106). -/
abbrev Sols := List (Outcome × Nat)

/-- `sim_successes_` and `sim_failures_` (g_monitor.h:131-132). -/
structure Lists where
  must : Sols := []
  may : Sols := []
  mustFail : Sols := []
  mayFail : Sols := []
deriving DecidableEq, Repr

/-- `store_simulated_outcome` (g_monitor.cpp:113-148). -/
def store (W : Nat → SimD) (L : Lists) (x : Outcome) (s : Nat) : Lists :=
  match x.success, (W s).mode with
  | true, .mandatory => { L with must := L.must ++ [(x, s)] }
  | true, .optional => { L with may := L.may ++ [(x, s)] }
  | false, .mandatory => { L with mustFail := L.mustFail ++ [(x, s)] }
  | false, .optional => { L with mayFail := L.mayFail ++ [(x, s)] }
  | _, .root => L

/-- What `reduce` of the monitors of controller `me` does with a prediction while simulating, as far as outcomes of goals
are concerned (g_monitor.cpp:283-297, 437-455, 535-549, 614-630; `Pred::get_simulation(Controller*)`,
factory.cpp:626-636: the first simulation with that root). -/
def take (W : Nat → SimD) (me : Nat) (L : Lists) (x : Outcome) : Lists :=
  match x.sims.find? (fun s => (W s).root == me) with
  | none => L
  | some s => if x.goal.isSome then store W L x s else L

/-- The predictions that come one after the other. -/
def gather (W : Nat → SimD) (me : Nat) (h : List Outcome) : Lists := h.foldl (take W me) {}

/-- The two tests for invalidation at the start of each round of the loops of `GMonitor::commit`
(g_monitor.cpp:198-201, 215-218, 232-235). -/
def alive (inv : Nat → Bool) (p : Outcome × Nat) : Bool := !(p.1.dead || p.1.sims.any inv) && !inv p.2

/-- The outcome concerns a stronger goal (g_monitor.cpp:202-206, 219-223, 500-504, 515-519). -/
def harms (A : Arith) (now : Int) (mine : Tgt) (x : Outcome) : Bool :=
  match x.goal with
  | none => false
  | some t => (t.strength A now).gt (mine.strength A now)

/-- `Sim::invalidate` (factory.cpp:749-757). -/
def stop (inv : Nat → Bool) (s : Nat) : Nat → Bool := fun t => t == s || inv t

/-- `invalidate_sim_outcomes` (g_monitor.cpp:150-165). -/
def stopAll (L : Lists) (inv : Nat → Bool) : Nat → Bool :=
  (L.mustFail ++ L.mayFail ++ L.must ++ L.may).foldl (fun i p => stop i p.2) inv

/-- The second loop of `GMonitor::commit` (g_monitor.cpp:213-225). -/
def dropHarmful (A : Arith) (now : Int) (mine : Tgt) (l : Sols) (inv : Nat → Bool) : Nat → Bool :=
  l.foldl (fun i p => if alive i p && harms A now mine p.1 then stop i p.2 else i) inv

/-- The third loop (g_monitor.cpp:230-251). -/
def best (A : Arith) (now : Int) (W : Nat → SimD) (inv : Nat → Bool) (l : Sols) : Option (Outcome × Nat) :=
  l.foldl (fun b p =>
    if alive inv p then
      match b with
      | none => some p
      | some q => if ((W p.2).rank A now).gt ((W q.2).rank A now) then some p else b
    else b) none

/-- A call of `abduce_no_simulation`: of which controller, for which simulation and prediction, with what arguments. -/
structure Call where
  ctrl : Nat
  sup : Nat
  opposite : Bool
  cfd : Rat
  fact : Nat
  sim : Nat
deriving DecidableEq, Repr

/-- g_monitor.cpp:257-263. -/
def call (W : Nat → SimD) (mine : Tgt) (p : Outcome × Nat) : Call :=
  ⟨(W p.2).ctrl, (W p.2).sup, (W p.2).opposite, mine.cfd, p.1.id, p.2⟩

/-- `GMonitor::commit` (g_monitor.cpp:186-265): which simulations are invalidated afterwards, and the calls. -/
def commit (A : Arith) (now : Int) (W : Nat → SimD) (mine : Tgt) (L : Lists) (inv : Nat → Bool) :
    (Nat → Bool) × List Call :=
  if L.mustFail.any (fun p => alive inv p && harms A now mine p.1) then (stopAll L inv, [])
  else
    let inv := dropHarmful A now mine L.mayFail inv
    match best A now W inv L.may with
    | none => (stopAll L inv, [])
    | some b => (stopAll L inv, call W mine b :: L.must.map (call W mine))

/-- The second loop of `SGMonitor::commit` (g_monitor.cpp:510-522): predictions are not asked. -/
def subDrop (A : Arith) (now : Int) (mine : Tgt) (l : Sols) (inv : Nat → Bool) : Nat → Bool :=
  l.foldl (fun i p => if !i p.2 && harms A now mine p.1 then stop i p.2 else i) inv

/-- `SGMonitor::commit` (g_monitor.cpp:488-522). -/
def subCommit (A : Arith) (now : Int) (mine : Tgt) (L : Lists) (inv : Nat → Bool) : Nat → Bool :=
  match L.mustFail.find? (fun p => !inv p.2 && harms A now mine p.1) with
  | some p => stop inv p.2
  | none => subDrop A now mine L.mayFail inv

/-- `abduce_no_simulation` (mdl_controller.cpp:1979-2014): a copy of the goal, with identity `id`, is pursued without
simulation. `m` says how the goal meets the model; the simulation of the goal gives its super-goal (`none`: it has
none, and that is read). -/
def commitTo (A : Arith) (c : Abduce.Ctl) (now : Int) (rdy : Abduce.Ready) (K : Abduce.Known) (fresh : Abduce.Target → Bool)
    (B : Abduce.Binds) (a sa : Requirements.Acc) (g : Abduce.Goal) (id : Nat) (m : Abduce.Meets) (opposite : Bool) (conf : Rat) :
    Option (List Abduce.Eff) :=
  if m = .no then some []
  else
    match g.sim with
    | none => none
    | some s => some (Abduce.abduce A c now rdy K fresh B a sa
        { g with id := id, sim := some { mode := .root, thz := 0, sup := s.sup, root := c.id } } opposite conf)

end Verif.Commit
