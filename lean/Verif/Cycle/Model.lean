import Verif.ViewCtl.Model
/-!
# The update cycle of a group

`Group::update` (r_exec/group.cpp:556-660) with `_update_saliency`, `_update_visibility` and
`_update_activation` (662-770), and the functions that put views into a group between updates: `load`,
`inject`, `inject_group`, `inject_existing_object`, `inject_reduction_jobs`.

One group is modelled. Left out: the decay of the saliency and of the saliency threshold (it works by
`mod_sln` and `mod_sln_thr` right before the update, group.cpp:236-265, 407-416, so it is one of the
changes requested before the update), the propagation of saliency, statistics and notifications, the
copies made by `cov`, and the programs of the groups that view this one. The group has a view or is the
root (group.cpp:560-565). The maps of views are one list, in the order of the loop over all views; the
properties do not depend on this order. Pending operations (group.cpp:571-576) only call `View::mod` and
`View::set`, which accumulate; they are modelled by the operations `modView` and `setView`.
-/
namespace Verif.Cycle
open Verif.F32 Verif.ViewCtl

/-- What a view holds, by the descriptor of the first word of its object: a group, a program with inputs
(`INSTANTIATED_PROGRAM`, `INSTANTIATED_CPP_PROGRAM`, `COMPOSITE_STATE`, `MODEL`), a `NULL_PROGRAM` (`past`:
`Atom::takesPastInputs`), an anti-program, an input-less program, anything else. -/
inductive Kind
  | group | program | null (past : Bool) | anti | inputLess | other
deriving DecidableEq

/-- The kinds that come with a controller (group.cpp:607-615). -/
def Kind.controlled : Kind → Bool
  | .program | .null _ | .anti | .inputLess => true
  | .group | .other => false

/-- The kinds filed in `ipgm_views_` and `anti_ipgm_views_`, which `FOR_ALL_VIEWS_WITH_INPUTS` visits
(r_exec/group.h:303-322). -/
def Kind.takes : Kind → Bool
  | .program | .null _ | .anti => true
  | .group | .inputLess | .other => false

/-- `View::SyncMode` (r_exec/view.h). -/
inductive Sync
  | once | onceAxiom | periodic | hold | always
deriving DecidableEq

/-- A view of the group with its controller: `active` is `activated_`, `stopped` is `invalidated_`
(r_exec/controller.h:106-107). -/
structure V where
  oid : Nat
  obj : Nat
  kind : Kind
  ctl : View
  ijt : Int
  sync : Sync
  cov : Bool
  active : Bool := false
  stopped : Bool := false

/-- The values of the group that are changed by `mod` and `set` and applied at updates
(group.h:110-124). -/
structure Ctrl where
  slnThr : Chan
  actThr : Chan
  visThr : Chan
  cSln : Chan
  cAct : Chan
  cSlnThr : Chan
  cActThr : Chan

/-- The group. `dead` are the invalidated objects; `viewing` is, for the object of a group view, what this
group is mapped to in the object's `viewing_groups_`; `newly` is `newly_salient_views_` (view, object),
`fresh` is `new_controllers_` (view, kind). `took` are the pairs of a program's view and an input's view for
which a reduction job has been made, `signals` the views for which a signalling job has been pushed. -/
structure G where
  ctrl : Ctrl
  views : List V := []
  dead : Nat → Bool := fun _ => false
  viewing : Nat → Option Bool := fun _ => none
  newly : List (Nat × Nat) := []
  fresh : List (Nat × Kind) := []
  took : List (Nat × Nat) := []
  signals : List Nat := []

/-- `x > thr` for values in the code. -/
def above (x thr : Chan) : Bool := decide (x.val > thr.val)

/-- The group is c-active and c-salient. -/
def Ctrl.on (c : Ctrl) : Bool := above c.cSln c.cSlnThr && above c.cAct c.cActThr

/-- group.cpp:99-104 `is_active_pgm`. -/
def isActivePgm (c : Ctrl) (v : V) : Bool := above v.ctl.act c.actThr && c.on

/-- group.cpp:106-111 `is_eligible_input`. -/
def isEligible (c : Ctrl) (v : V) : Bool := above v.ctl.sln c.slnThr && c.on

/-- `Controller::_take_input` (r_exec/overlay.cpp:225-229), `is_alive` (controller.h:139): the pair that
is added. -/
def take (dead : Nat → Bool) (p : V) (i : Nat × Nat) : List (Nat × Nat) :=
  if p.active && !p.stopped && !dead i.2 then [(p.oid, i.1)] else []

/-- group.cpp:1129-1158 `inject_reduction_jobs`, for the programs of this group. -/
def reduceJobs (g : G) (i : Nat × Nat) : G :=
  if above g.ctrl.cAct g.ctrl.cActThr then
    { g with took := g.took ++ g.views.flatMap fun p => if p.kind.takes && above p.ctl.act g.ctrl.actThr then take g.dead p i else [] }
  else g

/-- `group->viewing_groups_[this] = cov` or `erase(this)`. -/
def setViewing (f : Nat → Option Bool) (o : Nat) (x : Option Bool) : Nat → Option Bool :=
  fun p => if p = o then x else f p

/-- The signalling jobs pushed for a program (group.cpp:638-651, 949, 959): for anti-programs and
input-less programs. -/
def signalOf (k : Kind) (oid : Nat) : List Nat :=
  match k with
  | .anti | .inputLess => [oid]
  | _ => []

/-! ## Between updates -/

/-- group.cpp:468-553 `load`. Controllers are built inactive (overlay.cpp:202); C++ programs are taken to
exist. There are no null programs in images. -/
def load (g : G) (v : V) : G :=
  match v.kind with
  | .group =>
    if above g.ctrl.cAct g.ctrl.cActThr && above g.ctrl.cSln g.ctrl.cSlnThr && above v.ctl.vis g.ctrl.visThr then
      { g with views := g.views ++ [v], viewing := setViewing g.viewing v.obj (some v.cov) }
    else { g with views := g.views ++ [v] }
  | .program | .anti | .inputLess => { g with views := g.views ++ [{ v with active := isActivePgm g.ctrl v }] }
  | .other => { g with views := g.views ++ [v] }
  | .null _ => g

/-- `_Mem::start` for one group (r_exec/mem.cpp:453-508): injection times, signalling jobs, newly salient
views, and the reduction jobs of all of them. -/
def start (now : Int) (g : G) : G :=
  let g := { g with views := g.views.map fun v => { v with ijt := now } }
  let g := if above g.ctrl.cAct g.ctrl.cActThr then
      { g with signals := g.signals ++ g.views.flatMap fun v => if v.active then signalOf v.kind v.oid else [] }
    else g
  if above g.ctrl.cSln g.ctrl.cSlnThr then
    let new := (g.views.filter fun v => above v.ctl.sln g.ctrl.slnThr).map fun v => (v.oid, v.obj)
    new.foldl reduceJobs { g with newly := g.newly ++ new }
  else g

/-- Whether a new program is given the newly salient views (group.cpp:902-985): an input-less program is
not, a null program only if it takes past inputs. -/
def takesPast : Kind → Bool
  | .program | .anti => true
  | .null past => past
  | _ => false

/-- group.cpp:890-1010 `inject`: of anything but groups and notifications. The controllers of null programs
come with the view; they are taken to be inactive. -/
def inject (now : Int) (g : G) (v : V) : G :=
  let act := v.kind.controlled && isActivePgm g.ctrl v
  let v := { v with ijt := now, active := act }
  let g := { g with
    views := g.views ++ [v]
    took := g.took ++ (if act && takesPast v.kind then g.newly.flatMap (take g.dead v) else [])
    signals := g.signals ++ (if act then signalOf v.kind v.oid else []) }
  if isEligible g.ctrl v then reduceJobs { g with newly := g.newly ++ [(v.oid, v.obj)] } (v.oid, v.obj) else g

/-- group.cpp:1082-1103 `inject_group`. -/
def injectGroup (g : G) (v : V) : G :=
  let g := { g with views := g.views ++ [v] }
  if above g.ctrl.cSln g.ctrl.cSlnThr && above v.ctl.sln g.ctrl.slnThr then
    let g := if above v.ctl.vis g.ctrl.visThr then { g with viewing := setViewing g.viewing v.obj (some v.cov) } else g
    reduceJobs g (v.oid, v.obj)
  else g

/-- `f` applied to the view with this OID (`Group::get_view`, group.cpp:113-134). -/
def onView (g : G) (oid : Nat) (f : V → V) : G :=
  { g with views := g.views.map fun v => if v.oid = oid then f v else v }

/-- The existing view `u` when its object is injected with the view `v` (group.cpp:1047-1062; the pending
`Set` operations). -/
def again (A : Arith) (now : Int) (v u : V) : V :=
  let c := match v.ctl.res.val with
    | .inf => u.ctl
    | .fin r => u.ctl.set A .res r
  let c := c.set A .sln v.ctl.sln.val
  let c := match u.kind with
    | .program | .anti | .inputLess => c.set A .act v.ctl.act.val
    | _ => c
  { u with ctl := c, sync := v.sync, ijt := now }

/-- `update_c_act` and `update_c_sln` in group.cpp:1070-1071. -/
def Ctrl.again (A : Arith) (c : Ctrl) : Ctrl := { c with cAct := c.cAct.updateThr A, cSln := c.cSln.updateThr A }

/-- group.cpp:1032-1080 `inject_existing_object`, when the object has the view `old` in the group already:
`v` holds the new control values. The c-values of the group are updated at once. -/
def injectExisting (A : Arith) (now : Int) (g : G) (old : V) (v : V) : G :=
  let g := { onView g old.oid (again A now v) with ctrl := g.ctrl.again A }
  if above g.ctrl.cAct g.ctrl.cActThr && above g.ctrl.cSln g.ctrl.cSlnThr &&
      (!above old.ctl.sln g.ctrl.slnThr && above v.ctl.sln g.ctrl.slnThr) then
    reduceJobs { g with newly := g.newly ++ [(v.oid, v.obj)] } (v.oid, v.obj)
  else g

/-- The members of a group that accumulate changes. -/
inductive Member
  | slnThr | actThr | visThr | cSln | cAct | cSlnThr | cActThr
deriving DecidableEq

def Ctrl.get (c : Ctrl) : Member → Chan
  | .slnThr => c.slnThr
  | .actThr => c.actThr
  | .visThr => c.visThr
  | .cSln => c.cSln
  | .cAct => c.cAct
  | .cSlnThr => c.cSlnThr
  | .cActThr => c.cActThr

def Ctrl.put (c : Ctrl) (m : Member) (x : Chan) : Ctrl :=
  match m with
  | .slnThr => { c with slnThr := x }
  | .actThr => { c with actThr := x }
  | .visThr => { c with visThr := x }
  | .cSln => { c with cSln := x }
  | .cAct => { c with cAct := x }
  | .cSlnThr => { c with cSlnThr := x }
  | .cActThr => { c with cActThr := x }

/-- `Group::mod(member_index, value)` for these members (r_exec/group.inline.cpp:429-470 with 184-266). -/
def modGroup (A : Arith) (g : G) (m : Member) (x : Rat) : G :=
  { g with ctrl := g.ctrl.put m ((g.ctrl.get m).mod A x) }

/-- `Group::set(member_index, value)` for these members (group.inline.cpp:472-526 with 190-272). -/
def setGroup (A : Arith) (g : G) (m : Member) (x : Rat) : G :=
  { g with ctrl := g.ctrl.put m ((g.ctrl.get m).set A x) }

/-! ## The update -/

/-- group.h:165-177 `GroupState`. -/
structure GState where
  formerSlnThr : Rat
  wasAct : Bool
  isAct : Bool
  wasSln : Bool
  isSln : Bool

/-- The order in which a compiler evaluates the arguments of `GroupState state(...)` at group.cpp:583, which
C++ leaves open: `lateAct` if `get_c_act()` is evaluated after `update_c_act()`, `lateSln` likewise. -/
structure Order where
  lateAct : Bool
  lateSln : Bool

/-- The values of the group after group.cpp:579-583: `update_sln_thr`, `update_act_thr`, `update_vis_thr`,
`update_c_act`, `update_c_sln`. -/
def Ctrl.updated (A : Arith) (c : Ctrl) : Ctrl :=
  { c with
    slnThr := c.slnThr.updateThr A
    actThr := c.actThr.updateThr A
    visThr := c.visThr.updateThr A
    cAct := c.cAct.updateThr A
    cSln := c.cSln.updateThr A }

/-- group.cpp:583. -/
def gstate (A : Arith) (o : Order) (c : Ctrl) : GState :=
  let n := c.updated A
  { formerSlnThr := n.slnThr.val
    wasAct := above (if o.lateAct then n.cAct else c.cAct) c.cActThr
    isAct := above n.cAct c.cActThr
    wasSln := above (if o.lateSln then n.cSln else c.cSln) c.cSlnThr
    isSln := above n.cSln c.cSlnThr }

/-- group.cpp:662-701 `_update_saliency`: the view, and whether it is recorded as newly salient. -/
def updateSaliency (A : Arith) (st : GState) (c : Ctrl) (now : Int) (v : V) : V × Bool :=
  let was := decide (v.ctl.sln.val > st.formerSlnThr)
  let v := { v with ctl := { v.ctl with sln := v.ctl.sln.update A } }
  if st.isSln && above v.ctl.sln c.slnThr then
    match v.sync with
    | .once | .onceAxiom | .periodic => (v, !was)
    | .hold | .always => ({ v with ijt := now }, true)
  else (v, false)

/-- group.cpp:703-735 `_update_visibility`: the view, and what `viewing_groups_` becomes. -/
def updateVisibility (A : Arith) (st : GState) (c : Ctrl) (viewing : Option Bool) (v : V) : V × Option Bool :=
  let was := above v.ctl.vis c.visThr
  let v := { v with ctl := { v.ctl with vis := v.ctl.vis.update A } }
  let is := above v.ctl.vis c.visThr
  if st.wasAct && st.wasSln then
    if !st.isAct || !st.isSln then (v, none)
    else if !was then (v, if is then some v.cov else viewing)
    else (v, if !is then none else some v.cov)
  else if st.isAct && st.isSln then (v, if is then some v.cov else viewing)
  else (v, viewing)

/-- group.cpp:737-770 `_update_activation`: the view, and whether its controller is added to
`new_controllers_`. -/
def updateActivation (A : Arith) (st : GState) (c : Ctrl) (v : V) : V × Bool :=
  let was := above v.ctl.act c.actThr
  let v := { v with ctl := { v.ctl with act := v.ctl.act.update A } }
  let is := above v.ctl.act c.actThr
  if st.wasAct && st.wasSln then
    if !st.isAct || !st.isSln then ({ v with active := false }, false)
    else if !was then (if is then ({ v with active := true }, true) else (v, false))
    else (if !is then ({ v with active := false }, false) else (v, false))
  else if st.isAct && st.isSln then (if is then ({ v with active := true }, true) else (v, false))
  else (v, false)

/-- The body of the loop of group.cpp:587-627. -/
def updateView (A : Arith) (st : GState) (planned now : Int) (g : G) (v : V) : G :=
  if g.dead v.obj then g
  else if v.ijt ≥ planned then { g with views := g.views ++ [v] }
  else
    let v := { v with ctl := { v.ctl with res := v.ctl.res.update A } }
    if kept false v.ctl.res then
      let r := updateSaliency A st g.ctrl now v
      let g := if r.2 then { g with newly := g.newly ++ [(v.oid, v.obj)] } else g
      match v.kind with
      | .group =>
        let s := updateVisibility A st g.ctrl (g.viewing v.obj) r.1
        { g with views := g.views ++ [s.1], viewing := setViewing g.viewing v.obj s.2 }
      | .other => { g with views := g.views ++ [r.1] }
      | _ =>
        let s := updateActivation A st g.ctrl r.1
        let g := if s.2 then { g with fresh := g.fresh ++ [(v.oid, v.kind)] } else g
        { g with views := g.views ++ [s.1] }
    else g

/-- group.cpp:556-660 `update`. -/
def update (A : Arith) (o : Order) (planned now : Int) (g : G) : G :=
  let st := gstate A o g.ctrl
  let g := g.views.foldl (updateView A st planned now) { g with ctrl := g.ctrl.updated A, views := [], newly := [] }
  let g := g.newly.foldl reduceJobs g
  if st.isAct && st.isSln then
    { g with signals := g.signals ++ g.fresh.flatMap (fun x => signalOf x.2 x.1), fresh := [] }
  else g

/-! ## Histories -/

inductive Op
  | load (v : V)
  | start (now : Int)
  | inject (now : Int) (v : V)
  | injectGroup (v : V)
  | injectExisting (now : Int) (old v : V)
  | modGroup (m : Member) (x : Rat)
  | setGroup (m : Member) (x : Rat)
  | modView (oid : Nat) (m : ViewCtl.Member) (x : Rat)
  | setView (oid : Nat) (m : ViewCtl.Member) (x : Rat)
  /-- An object is invalidated by someone else. -/
  | invalidate (obj : Nat)
  /-- The controller of a view is invalidated. -/
  | stop (oid : Nat)
  | update (o : Order) (planned now : Int)

def step (A : Arith) (g : G) : Op → G
  | .load v => load g v
  | .start now => start now g
  | .inject now v => inject now g v
  | .injectGroup v => injectGroup g v
  | .injectExisting now old v => injectExisting A now g old v
  | .modGroup m x => modGroup A g m x
  | .setGroup m x => setGroup A g m x
  | .modView oid m x => onView g oid fun v => { v with ctl := v.ctl.mod A m x }
  | .setView oid m x => onView g oid fun v => { v with ctl := v.ctl.set A m x }
  | .invalidate obj => { g with dead := fun o => g.dead o || decide (o = obj) }
  | .stop oid => onView g oid fun v => { v with stopped := true }
  | .update o planned now => update A o planned now g

def run (A : Arith) (g : G) (ops : List Op) : G := ops.foldl (step A) g

/-- A group with these values, no changes pending. -/
def Ctrl.fresh (slnThr actThr visThr cSln cAct cSlnThr cActThr : Rat) : Ctrl :=
  { slnThr := { val := slnThr }, actThr := { val := actThr }, visThr := { val := visThr }, cSln := { val := cSln },
    cAct := { val := cAct }, cSlnThr := { val := cSlnThr }, cActThr := { val := cActThr } }

end Verif.Cycle
