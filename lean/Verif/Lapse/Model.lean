import Verif.ViewCtl.Model
/-!
# How models lapse

A model has a controller in its primary group and one in its secondary group. Transcription of
`Controller::_take_input` (`/repo/r_exec/overlay.cpp:227-231`), `HLPController::become_invalidated`,
`is_orphan` (`/repo/r_exec/hlp_controller.cpp:261-299`), of `take_input`, `reduce`,
`check_last_match_time`, `kill_views` and the part of `rate_model` that touches views, for the primary
controller (`/repo/r_exec/mdl_controller.cpp:1574-1582, 1759-1834, 2501-2574, 2651-2683`) and for the
secondary one (`:2751-2777, 2821-2872, 2890-2917`), of the part of `Group::update` that concerns the
views of a model (`/repo/r_exec/group.cpp:587-622, 736-768`) and of the cascade of
`become_invalidated` from controller to controller.

Simplifications: numbers are exact; the groups stay c-active and c-salient and keep their thresholds; an
update concerns views injected before it; a view that leaves its group has no other holder, so its
destructor runs (`/repo/r_exec/view.cpp:104-108`); the counts of requirements are `Verif.Counts`, so
whether a controller is an orphan is a property of the moment; what a rate is worth is `Verif.Rating`;
of the model base the state of this model's entry is kept.
-/
namespace Verif.Lapse
open Verif.F32 Verif.ViewCtl

/-- Activation thresholds of the two groups, `primary_thz`, `secondary_thz`
(`/repo/r_exec/mem.h:255-256`). -/
structure Env where
  pThr : Rat
  sThr : Rat
  primThz : Int
  secThz : Int

/-- A controller: `invalidated_`, `activated_` (`/repo/r_exec/controller.h:106-107`),
`last_match_time_` (hlp_controller.h:193), and its reduction jobs in the queue. -/
structure Ctl where
  inv : Bool
  on : Bool
  last : Int
  jobs : Nat

/-- `Controller::is_alive` (controller.h:139). -/
def Ctl.alive (c : Ctl) : Bool := !c.inv && c.on

/-- Where the model base has the model: in the white list, in no list, in the black list
(`/repo/r_exec/model_base.cpp:383-400`). -/
inductive Status | known | forgotten | refused
deriving DecidableEq

/-- A model: its two controllers, the activation and resilience of its two views, whether these are in
their groups. -/
structure Mdl where
  p : Ctl
  s : Ctl
  pa : Chan
  sa : Chan
  pr : Res
  sr : Res
  pin : Bool
  sin : Bool
  status : Status

/-- `View::force_res` (view.inline.cpp:288-291). -/
def force (r : Res) (v : Rat) : Res := { r with val := .fin v }

/-- `PrimaryMDLController::kill_views` (mdl_controller.cpp:2651-2666), without the counts. -/
def killP (m : Mdl) : Mdl :=
  if m.p.inv then m
  else { m with p := { m.p with inv := true }, pr := force m.pr 0, sr := force m.sr 0 }

/-- `SecondaryMDLController::kill_views` (mdl_controller.cpp:2890-2897), without the counts. -/
def killS (m : Mdl) : Mdl :=
  { m with s := { m.s with inv := true }, pr := force m.pr 0, sr := force m.sr 0 }

/-- `register_mdl_timeout` (model_base.cpp:392-398): removed from the white list. -/
def Status.timeout : Status → Status
  | .known => .forgotten
  | x => x

/-- An outcome given to the primary controller: the new success rate, and whether the model is strong. -/
structure Out where
  success : Bool
  rate : Rat
  strong : Bool

/-- `PrimaryMDLController::rate_model` (mdl_controller.cpp:2501-2574): what it does with the views and the
model base. -/
def rateP (E : Env) (m : Mdl) (o : Out) : Mdl :=
  if m.p.inv then m
  else if o.success then { m with pa := m.pa.set exact o.rate }
  else if E.pThr < o.rate then { m with pa := m.pa.set exact o.rate }
  else if o.strong then { m with pa := m.pa.set exact 0, sa := m.sa.set exact o.rate }
  else killP { m with status := .refused }

/-- `SecondaryMDLController::rate_model` (mdl_controller.cpp:2821-2861), for a success that gives the
rate `r`. -/
def rateS (E : Env) (m : Mdl) (r : Rat) : Mdl :=
  if m.s.inv then m
  else if E.pThr < r then { m with sa := m.sa.set exact 0, pa := m.pa.set exact r }
  else if E.sThr < r then { m with sa := m.sa.set exact r }
  else m

/-- What a reduction job meets: the controller has template arguments and no requirement (`is_orphan`,
hlp_controller.cpp:286-299), the input is invalidated, it is a goal of one's own that is no drive, it
matches forward. -/
structure In where
  orphan : Bool
  dead : Bool
  goal : Bool
  hit : Bool

/-- `PrimaryMDLController::check_last_match_time` (mdl_controller.cpp:2668-2683). -/
def checkP (E : Env) (t : Int) (m : Mdl) (hit : Bool) : Mdl :=
  if hit then { m with p := { m.p with last := t } }
  else if E.primThz < t - m.p.last then { m with pa := m.pa.set exact 0 }
  else m

/-- `SecondaryMDLController::check_last_match_time` (mdl_controller.cpp:2899-2917). -/
def checkS (E : Env) (t : Int) (m : Mdl) (hit : Bool) : Mdl :=
  if hit then { m with s := { m.s with last := t } }
  else if E.secThz < t - m.s.last then killS { m with status := m.status.timeout }
  else m

/-- `PrimaryMDLController::reduce` (mdl_controller.cpp:1760-1834): `outs` are the outcomes found while the
input is compared with the monitored predictions and goals (lines 1822-1828). -/
def reduceP (E : Env) (t : Int) (i : In) (outs : List Out) (m : Mdl) : Mdl :=
  if i.orphan then killP m
  else if i.dead then m
  else if i.goal then m
  else checkP E t (outs.foldl (rateP E) m) i.hit

/-- `SecondaryMDLController::reduce` (mdl_controller.cpp:2761-2776): `outs` are the rates after the
successes found by `monitor_predictions`. -/
def reduceS (E : Env) (t : Int) (i : In) (outs : List Rat) (m : Mdl) : Mdl :=
  if i.orphan then killS m
  else if i.dead then m
  else checkS E t (outs.foldl (rateS E) m) i.hit

/-- `_update_activation` in a group that stays c-active and c-salient (group.cpp:736-768). -/
def activate (thr : Rat) (c : Ctl) (a : Chan) : Ctl :=
  if a.val ≤ thr then (if thr < (a.update exact).val then { c with on := true } else c)
  else if thr < (a.update exact).val then c else { c with on := false }

/-- `Group::update` of the primary group, for the view of the model (group.cpp:587-622). -/
def updP (E : Env) (m : Mdl) : Mdl :=
  if m.pin then
    if kept false (m.pr.update exact) then
      { m with pr := m.pr.update exact, p := activate E.pThr m.p m.pa, pa := m.pa.update exact }
    else { m with pin := false, p := { m.p with inv := true } }
  else m

/-- `Group::update` of the secondary group, for the view of the model. -/
def updS (E : Env) (m : Mdl) : Mdl :=
  if m.sin then
    if kept false (m.sr.update exact) then
      { m with sr := m.sr.update exact, s := activate E.sThr m.s m.sa, sa := m.sa.update exact }
    else { m with sin := false, s := { m.s with inv := true } }
  else m

/-- Something that happens to the model. -/
inductive Op
  /-- the group hands an input to the controller; is it a fact or anti-fact, is one of the controllers in
  `controllers_` invalidated (or the last reference gone, hlp_controller.cpp:275-283) -/
  | giveP (fact gone : Bool)
  | giveS (fact gone : Bool)
  /-- a queued reduction job runs -/
  | runP (i : In) (outs : List Out)
  | runS (i : In) (outs : List Rat)
  /-- a monitoring job of the primary controller finds that a prediction failed
  (`Monitor::is_alive`, monitor.cpp:103-106) -/
  | timer (o : Out)
  /-- a model whose requirement this one is reports an outcome (`register_req_outcome`) -/
  | tellP (o : Out)
  | tellS (r : Rat)
  /-- the group is updated -/
  | updP
  | updS

/-- One step at the time `t`. -/
def step (E : Env) (m : Mdl) (t : Int) : Op → Mdl
  | .giveP fact gone =>
    if m.p.alive then
      if gone then killP m
      else if fact then { m with p := { m.p with jobs := m.p.jobs + 1 } } else m
    else m
  | .giveS fact gone =>
    if m.s.alive then
      if gone then killS m
      else if fact then { m with s := { m.s with jobs := m.s.jobs + 1 } } else m
    else m
  | .runP i outs =>
    if m.p.jobs = 0 then m
    else reduceP E t i outs { m with p := { m.p with jobs := m.p.jobs - 1 } }
  | .runS i outs =>
    if m.s.jobs = 0 then m
    else reduceS E t i outs { m with s := { m.s with jobs := m.s.jobs - 1 } }
  | .timer o => if m.p.alive then rateP E m o else m
  | .tellP o => rateP E m o
  | .tellS r => rateS E m r
  | .updP => Lapse.updP E m
  | .updS => Lapse.updS E m

/-- A model is injected at `t0` with the activation `a` (auto_focus.cpp:427, resilience: forever;
group.cpp:865-912, 1303-1316): its view in the secondary group has the activation 0. -/
def new (E : Env) (t0 : Int) (a : Rat) : Mdl :=
  { p := ⟨false, decide (E.pThr < a), t0, 0⟩, s := ⟨false, false, t0, 0⟩
    pa := { val := a }, sa := { val := 0 }, pr := { val := .inf }, sr := { val := .inf }
    pin := true, sin := true, status := .known }

/-- A history, oldest first. -/
def run (E : Env) (m : Mdl) (h : List (Int × Op)) : Mdl :=
  h.foldl (fun m e => step E m e.1 e.2) m

/-! ## The cascade -/

/-- The controllers of a group (views of killed ones stay until the end of the history): `controllers_` of each (those of the patterns' models and states that had
a view in the group when the controller was made, `/repo/r_exec/mdl_controller.cpp:326-360`,
`/repo/r_exec/cst_controller.cpp:523-537`), invalidated or not, activated or not. -/
structure Net where
  parts : Nat → List Nat
  inv : Nat → Bool
  on : Nat → Bool
  made : Nat → Bool

/-- `invalidate` (hlp_controller.cpp:108-112) within `kill_views`. -/
def Net.kill (n : Net) (k : Nat) : Net :=
  { n with inv := fun j => if j = k then true else n.inv j
           parts := fun j => if j = k then [] else n.parts j }

/-- Something that happens to the controllers of a group. -/
inductive NetOp
  /-- a model or state with these models and states in its patterns is injected -/
  | make (k : Nat) (deps : List Nat)
  /-- a controller is killed for a reason of its own -/
  | kill (k : Nat)
  /-- a controller gains or loses its activation -/
  | turn (k : Nat) (b : Bool)
  /-- an input is handed to a controller -/
  | give (k : Nat)

/-- `become_invalidated` within `_take_input`, without template arguments (hlp_controller.cpp:261-273,
overlay.cpp:227-231). -/
def Net.step (n : Net) : NetOp → Net
  | .make k deps => if n.made k then n else
      { n with made := fun j => if j = k then true else n.made j
               parts := fun j => if j = k then deps.filter n.made else n.parts j
               on := fun j => if j = k then true else n.on j }
  | .kill k => if n.made k then n.kill k else n
  | .turn k b => { n with on := fun j => if j = k then b else n.on j }
  | .give k => if !n.inv k && n.on k && (n.parts k).any n.inv then n.kill k else n

def Net.empty : Net := ⟨fun _ => [], fun _ => false, fun _ => false, fun _ => false⟩

def Net.run (n : Net) (h : List NetOp) : Net := h.foldl Net.step n

end Verif.Lapse
