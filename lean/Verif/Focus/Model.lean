import Verif.Observe.Model
import Verif.Lifetime.Model
/-!
# Focus

`AutoFocusController` (r_exec/auto_focus.cpp, auto_focus.h), which decides what of the standard input reaches the
groups where models live, and starts the learning from goals and predictions; the filter of the pattern extractors it
keeps (r_exec/pattern_extractor.cpp:100-192, 555-580, 791-806); and the controllers that watch repeated inputs
(r_exec/ast_controller.cpp, ast_controller.tpl.cpp).

Objects and views are numbered. Matching is not modelled here (C16, C17, C81): whether bindings have a value in
common, and whether an object matches a target, are parameters. The maps from targets to extractors are lists: their
order is any order. What an extractor does when it is reduced is not part of this model. `cst_hook_`
(pattern_extractor.cpp:113-121, 176-177) is left out: it is set only if the bindings of the target are complete, and used
only if they are not. The ratings (auto_focus.h:106-133) are left out: nothing is ever entered into them, so
that `map.find(pattern)` (auto_focus.h:166) finds nothing.
-/
namespace Verif.Focus
open Verif.Observe (Sync)
open Verif.ViewCtl (ResVal)
open Verif.F32 (Arith)

/-- An input as the controller gets it: a view of a fact. `fact` is the fact and `payload` what it is of; `host` and
`upr` are its group and the update period thereof. -/
structure In where
  view : Nat
  fact : Nat
  payload : Nat
  positive : Bool
  cfd : Rat
  after : Int
  before : Int
  sync : Sync
  ijt : Int
  res : ResVal
  host : Nat
  upr : Nat
  deriving DecidableEq

/-- A group: its number and update period. -/
structure Grp where
  id : Nat
  upr : Nat
  deriving DecidableEq, Repr

/-- What a view shows: the input itself, or a new fact. -/
inductive Shown
  | same (fact : Nat)
  | copy (payload : Nat) (positive : Bool) (cfd : Rat) (after before : Int)
  deriving DecidableEq

/-- A view given to `_Mem::inject` for the input view `src`. `res` is `none` where its computation is undefined. -/
structure Out where
  src : Nat
  group : Nat
  org : Option Nat
  sync : Sync
  ijt : Int
  res : Option Int
  shown : Shown
  deriving DecidableEq

/-- What the controller causes: an injection, a watch on a view it injected (`inject_null_program`), a job that learns
from the outcome of a goal or prediction, and a successful prediction told to the extractor of a goal. -/
inductive Eff
  | inj (o : Out)
  | watch (hold : Bool) (o : Out) (source : Nat) (ttl : Int)
  | learn (goal : Bool) (target : Nat) (outcome : Nat)
  | ack (target : Nat) (outcome : Nat)
  deriving DecidableEq

/-- The arguments of the program (auto_focus.cpp:95-109) and its surroundings. `shares t i`: the bindings of target `t`
and of input `i` have a value in common (`BindingMap::intersect`, binding_map.cpp:905-933); `sharesVia t j i`: so do the
bindings obtained by matching `t` with the input `j`, and those of `i`; `fits i t`: `i` matches `t`
(`match_fwd_strict`); `full t`: the bindings of `t` are complete (`is_fully_specified`). -/
structure Env where
  passThrough : Bool
  ctpx : Bool
  gtpx : Bool
  ptpx : Bool
  trace : Bool
  groups : List Grp
  ref : Int
  base : Int
  tol : Int
  thz : Int
  arith : Arith
  shares : Nat → Nat → Bool
  sharesVia : Nat → Nat → Nat → Bool
  fits : Nat → Nat → Bool
  full : Nat → Bool

/-- `TPX`, `GTPX` or `PTPX` (pattern_extractor.h:144-300). -/
inductive Kind
  | plain | goal | pred
  deriving DecidableEq, Repr

/-- An extractor: its target, `new_maps_` (the inputs they were made from) and `inputs_`. -/
structure Tpx where
  target : Nat
  kind : Kind
  maps : List Nat := []
  inputs : List Nat := []
  deriving DecidableEq, Repr

/-- `CInput` (pattern_extractor.h:123-142). -/
structure Cached where
  input : In
  injected : Bool
  deriving DecidableEq

/-- The state of the controller: `goals_`, `predictions_`, `cache_`, `cross_buffer_` (the views pushed). -/
structure St where
  goals : List Tpx := []
  preds : List Tpx := []
  cache : List Cached := []
  cross : List Nat := []

/-! ## Injecting -/

/-- The view made for a group in all cases (auto_focus.cpp:164-168, 181-185, 206-211, 230-235): a copy of the
input's view, with the group as host and the input's group as origin. -/
def viewFor (E : Env) (x : In) (g : Grp) (sync : Sync) (s : Shown) : Out :=
  { src := x.view, group := g.id, org := some x.host, sync := sync, ijt := x.ijt
    res := Lifetime.focusRes E.arith x.res x.upr g.upr, shown := s }

/-- The copy of a fact, with certainty one, over a time interval (auto_focus.cpp:174-177, 199-202, 222-225). -/
def copyOf (x : In) (after before : Int) : Shown := .copy x.payload x.positive 1 after before

/-- auto_focus.cpp:148-254 `inject_input(View*)`: what is caused, and whether `primary_view` was set. -/
def injectInput (E : Env) (now : Int) (x : In) : List Eff × Option Out :=
  match E.groups with
  | [] => ([], none)
  | g0 :: gs =>
    match x.sync with
    | .once =>
      let v := fun g => viewFor E x g .once (.same x.fact)
      ((v g0 :: gs.map v).map .inj, some (v g0))
    | .periodic =>
      let c := copyOf x (Upr.prevUprTime E.ref E.base g0.upr now) (Upr.nextUprTime E.ref E.base g0.upr now)
      let v := fun g => viewFor E x g .periodic c
      let w := if E.ctpx && x.positive then [Eff.watch false (v g0) x.fact (2 * (g0.upr * E.base))] else []
      (.inj (v g0) :: w ++ (gs.map v).map .inj, some (v g0))
    | .hold =>
      let c := copyOf x (now + 2 * E.tol) (now + g0.upr * E.base)
      let v := fun g => viewFor E x g .once c
      let w := if E.ctpx then [Eff.watch true (v g0) x.fact (g0.upr * E.base)] else []
      (.inj (v g0) :: w ++ (gs.map v).map .inj, some (v g0))
    | .axiom_ =>
      let c := copyOf x (Upr.prevUprTime E.ref E.base g0.upr now) (Upr.nextUprTime E.ref E.base g0.upr now)
      let v := fun g => { viewFor E x g .onceAxiom c with res := some 1 }
      ((v g0 :: gs.map v).map .inj, some (v g0))
    | .onceAxiom => ([], none)

/-- auto_focus.cpp:130-140 `inject_input(View*, uint32)`: the origin is left as it is in the input's view, of which the
group is said to be `org`. -/
def injectFrom (E : Env) (x : In) (org : Option Nat) (start : Nat) : List Eff :=
  (E.groups.drop start).map fun g => .inj { viewFor E x g x.sync (.same x.fact) with org := org }

/-- auto_focus.cpp:142-146 `inject_input(View*, _Fact*, BindingMap*)`: `none` if the primary view was not set. -/
def injectStore (E : Env) (now : Int) (s : St) (x : In) : Option (St × List Eff) :=
  match injectInput E now x with
  | (es, some o) => some ({ s with cross := s.cross ++ [o.src] }, es)
  | (_, none) => none

/-! ## The filter of the extractors -/

/-- Too old for the cache (`CInput::IsInvalidated`, pattern_extractor.h:135-141). -/
def expired (E : Env) (now : Int) (c : Cached) : Bool := decide (E.thz < now - c.input.ijt)

/-- The cells that an iteration over the whole cache visits and leaves (r_code/time_buffer.h:118-140): the first is not
tested. -/
def sweep (E : Env) (now : Int) : List Cached → List Cached
  | [] => []
  | c :: cs => c :: cs.filter fun c => !expired E now c

/-- time_buffer.h:141-150 `find`, from the second cell on: the cells left, and whether the view was found. -/
def findIn (E : Env) (now : Int) (view : Nat) : List Cached → List Cached × Bool
  | [] => ([], false)
  | c :: cs =>
    if expired E now c then findIn E now view cs
    else if c.input.view = view then (c :: cs, true)
    else let r := findIn E now view cs; (c :: r.1, r.2)

/-- time_buffer.h:141-150 `find`: the first cell is not tested. -/
def find (E : Env) (now : Int) (view : Nat) : List Cached → List Cached × Bool
  | [] => ([], false)
  | c :: cs =>
    if c.input.view = view then (c :: cs, true)
    else let r := findIn E now view cs; (c :: r.1, r.2)

/-- pattern_extractor.cpp:161-171: the cached inputs that have a value in common with the new bindings of target `t` are
injected. `done` are the cells already visited. -/
def bringIn (E : Env) (now : Int) (t via : Nat) : List Cached → St → Option (List Cached × St × List Eff)
  | [], s => some ([], s, [])
  | c :: cs, s =>
    if c.injected || !E.sharesVia t via c.input.fact then
      (bringIn E now t via cs s).map fun r => (c :: r.1, r.2.1, r.2.2)
    else
      (injectStore E now s c.input).bind fun p =>
        (bringIn E now t via cs p.1).map fun r => ({ c with injected := true } :: r.1, r.2.1, p.2 ++ r.2.2)

/-- The result of the filter: whether the input is taken, the extractor, the state, what was caused. -/
structure Filtered where
  taken : Bool
  tpx : Tpx
  st : St
  effs : List Eff

/-- pattern_extractor.cpp:147-192 `TPX::filter`, of anything but instances of composite states. An input that is in the
cache is there with the injection time of its view or an earlier one; as views are immutable here, it is the same. -/
def filter (E : Env) (now : Int) (t : Tpx) (s : St) (x : In) : Option Filtered :=
  if E.shares t.target x.fact then some ⟨true, t, s, []⟩
  else if E.full t.target then some ⟨false, t, s, []⟩
  else if t.maps.any fun m => E.sharesVia t.target m x.fact then some ⟨true, t, s, []⟩
  else if E.fits x.fact t.target then
    (bringIn E now t.target x.fact (sweep E now s.cache) s).map fun r =>
      ⟨true, { t with maps := t.maps ++ [x.fact] }, { r.2.1 with cache := r.1 }, r.2.2⟩
  else
    let r := find E now x.view s.cache
    some ⟨false, t, { s with cache := if r.2 then r.1 else r.1 ++ [⟨x, false⟩] }, []⟩

/-- `take_input` of the three kinds (pattern_extractor.cpp:136-139, 555-562). -/
def takeInput (E : Env) (now : Int) (t : Tpx) (s : St) (x : In) : Option Filtered :=
  (filter E now t s x).map fun r =>
    if r.taken && decide (t.kind = .goal) then { r with tpx := { r.tpx with inputs := r.tpx.inputs ++ [x.view] } } else r

/-- The result of passing an input to a list of extractors. -/
structure Dispatched where
  tpxs : List Tpx
  injected : Bool
  st : St
  effs : List Eff

/-- auto_focus.cpp:272-286 `dispatch`. -/
def dispatch (E : Env) (now : Int) (x : In) : List Tpx → Bool → St → Option Dispatched
  | [], inj, s => some ⟨[], inj, s, []⟩
  | t :: ts, inj, s =>
    (takeInput E now t s x).bind fun r =>
      let go := fun (inj : Bool) (s : St) (es : List Eff) =>
        (dispatch E now x ts inj s).map fun d => { d with tpxs := r.tpx :: d.tpxs, effs := r.effs ++ es ++ d.effs }
      if r.taken && !inj then (injectStore E now r.st x).bind fun p => go true p.1 p.2
      else go inj r.st []

/-! ## Targets and outcomes -/

/-- auto_focus.h:158-173 `build_tpx`; `goal` tells `GTPX` from `PTPX`, `wr` is whether a weak requirement was used. -/
def buildTpx (E : Env) (goal : Bool) (target : Nat) (wr : Bool) : Tpx :=
  { target := target, kind := if !E.gtpx && !E.ptpx then .plain else if wr then .plain else if goal then .goal else .pred }

/-- `insert` of the maps: nothing if the target is there. -/
def insert (ts : List Tpx) (t : Tpx) : List Tpx :=
  if ts.any fun u => u.target = t.target then ts else ts ++ [t]

/-- `signal` (pattern_extractor.cpp:141-142, 564-578, 791-806): the job pushed. -/
def signal (E : Env) (t : Tpx) (success : Bool) (outcome : Nat) : List Eff :=
  match t.kind with
  | .plain => []
  | .goal => if E.gtpx && success then [.learn true t.target outcome] else []
  | .pred => if E.ptpx && !success then [.learn false t.target outcome] else []

/-- auto_focus.cpp:256-264 `notify`: the extractors left and what is caused. -/
def notify (E : Env) (ts : List Tpx) (target : Nat) (success : Bool) (outcome : Nat) : List Tpx × List Eff :=
  match ts.find? fun t => t.target = target with
  | none => (ts, [])
  | some t => (ts.filter fun u => u.target ≠ target, signal E t success outcome)

/-- auto_focus.cpp:265-270 `dispatch_pred_success`: only the extractors of goals do something with it
(pattern_extractor.cpp:144-145, 580). -/
def ackAll (ts : List Tpx) (outcome : Nat) : List Eff :=
  (ts.filter fun t => t.kind = .goal).map fun t => .ack t.target outcome

/-- What the controller is given (auto_focus.cpp:295-303): a reduction of a model with its first production, the outcome
of a goal or prediction, a performance fact, an instance of a composite state, any other fact. Reductions of states
and programs are ignored. -/
inductive Ev
  | reduction (goal : Bool) (target : Nat) (wr : Bool)
  | outcome (goal : Bool) (target : Nat) (success : Bool) (fact : Nat)
  | perf (x : In) (org : Option Nat)
  | icst (x : In)
  | fact (x : In)

/-- auto_focus.cpp:305-413 `reduce`. `none`: `primary_view`, which was not set, is used. -/
def reduce (E : Env) (now : Int) (s : St) : Ev → Option (St × List Eff)
  | .reduction true t wr => some ({ s with goals := insert s.goals (buildTpx E true t wr) }, [])
  | .reduction false t wr => some ({ s with preds := insert s.preds (buildTpx E false t wr) }, [])
  | .outcome true t ok o =>
    let r := notify E s.goals t ok o
    some ({ s with goals := r.1 }, r.2)
  | .outcome false t ok o =>
    let r := notify E s.preds t ok o
    some ({ s with preds := r.1 }, r.2 ++ if ok then ackAll s.goals o else [])
  | .perf x org => some (s, injectFrom E x org 2)
  | .icst x =>
    if E.passThrough && !E.ptpx then some (s, [])
    else some ({ s with cross := s.cross ++ [x.view] }, [])
  | .fact x =>
    if E.passThrough then
      let r := injectInput E now x
      if E.ptpx || E.trace then
        match r.2 with
        | none => none
        | some o => some (if E.ptpx then { s with cross := s.cross ++ [o.src] } else s, r.1)
      else some (s, r.1)
    else
      (dispatch E now x s.goals false s).bind fun d =>
        (dispatch E now x s.preds d.injected d.st).map fun d' =>
          ({ d'.st with goals := d.tpxs, preds := d'.tpxs }, d.effs ++ d'.effs)

/-- A run: the events with the instants at which they are reduced. -/
def run (E : Env) : St → List (Int × Ev) → Option (St × List (List Eff))
  | s, [] => some (s, [])
  | s, (now, e) :: es =>
    (reduce E now s e).bind fun r => (run E r.1 es).map fun q => (q.1, r.2 :: q.2)

/-! ## Watching repeated inputs -/

/-- `MatchResult` of `is_timeless_evidence` (C17). -/
inductive Verdict
  | confirms | contradicts | unrelated
  deriving DecidableEq, Repr

/-- A view that a watch is given. `kind` is whether it is a fact or anti-fact; `selfGoal` whether a goal of the system
itself; `dead` whether it is invalidated when it is reduced; `pred` is, for a prediction, whether it is of a fact, and
the verdict of what it predicts on the target; `verdict` is that of the input itself. -/
structure Seen where
  view : Nat
  fact : Nat
  kind : Bool
  selfGoal : Bool
  ijt : Int
  dead : Bool
  pred : Option (Bool × Verdict)
  verdict : Verdict
  deriving DecidableEq, Repr

/-- `PASTController` and `HASTController` with their `CTPX`: `alive` is not invalidated; `stored` is `inputs_` of
the extractor, newest first. -/
structure Watch where
  hold : Bool
  target : Nat
  source : Nat
  since : Int
  alive : Bool := true
  stored : List Nat := []
  deriving DecidableEq, Repr

/-- What a watch causes: its view is removed (`force_res(0)`), a job that learns from the change, and an object is
invalidated. -/
inductive WEff
  | gone
  | learn (view : Nat)
  | invalidate (object : Nat)
  deriving DecidableEq, Repr

/-- ast_controller.tpl.cpp:93-98: the watch made at `now`. -/
def newWatch (tol now : Int) (hold : Bool) (target source : Nat) : Watch :=
  { hold := hold, target := target, source := source, since := now - tol }

/-- ast_controller.tpl.cpp:103-116 `take_input`: whether a job is pushed. -/
def Watch.takes (w : Watch) (x : Seen) : Bool := w.alive && x.kind && !x.selfGoal && decide (w.since ≤ x.ijt)

/-- pattern_extractor.cpp:1006-1015 `store_input`: in front. -/
def Watch.store (w : Watch) (x : Seen) : Watch := { w with stored := x.view :: w.stored }

/-- ast_controller.tpl.cpp:159-163 `kill`. -/
def Watch.kill (w : Watch) : Watch := { w with alive := false }

/-- ast_controller.tpl.cpp:118-157 `reduce`, with the two functions of ast_controller.cpp:101-119, 130-146. -/
def Watch.reduce (w : Watch) (x : Seen) : Watch × List WEff :=
  if !w.alive then (w, [])
  else if x.dead then (w, [])
  else if x.fact = w.target then (w.store x, [])
  else
    match x.pred with
    | some (positive, v) =>
      if positive then
        match v with
        | .confirms | .contradicts => (w.kill, [.gone])
        | .unrelated => (w, [])
      else (w, [])
    | none =>
      match x.verdict with
      | .confirms => (w.kill, if w.hold then [.gone] else [.gone, .invalidate w.target])
      | .contradicts =>
        (w.kill, if w.hold then [.gone, .learn x.view, .invalidate w.target, .invalidate w.source]
                 else [.gone, .learn x.view])
      | .unrelated => (w.store x, [])

/-- A watch with the jobs pushed for it. -/
structure Queue where
  watch : Watch
  jobs : List Seen := []

/-- What happens to a watch: a view is given to it, or its oldest job runs, when the input is or is not invalidated. -/
inductive WEv
  | give (x : Seen)
  | work (dead : Bool)

/-- One step of a watch. -/
def Queue.step (q : Queue) : WEv → Queue × List WEff
  | .give x => (if q.watch.takes x then { q with jobs := q.jobs ++ [x] } else q, [])
  | .work dead =>
    match q.jobs with
    | [] => (q, [])
    | x :: xs =>
      let r := q.watch.reduce { x with dead := dead }
      ({ watch := r.1, jobs := xs }, r.2)

/-- A history of a watch: what was caused, in order. -/
def Queue.run (q : Queue) : List WEv → Queue × List WEff
  | [] => (q, [])
  | e :: es =>
    let r := q.step e
    let p := Queue.run r.1 es
    (p.1, r.2 ++ p.2)

end Verif.Focus
