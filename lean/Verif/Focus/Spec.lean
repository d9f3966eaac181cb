import Verif.Focus.Model
/-!
# What focus is to do

Properties C109 to C112, stated on what the controller causes and not on how it finds out.
-/
namespace Verif.Focus

/-- The views injected, in order. -/
def outs (es : List Eff) : List Out := es.filterMap fun | .inj o => some o | _ => none

/-- How often the input with view `v` was sent to group `g`. -/
def sent (es : List Eff) (v g : Nat) : Nat := (outs es).countP fun o => decide (o.src = v ∧ o.group = g)

/-- The watches set up. -/
def watches (es : List Eff) : List Eff := es.filter fun | .watch .. => true | _ => false

/-- The learning jobs pushed. -/
def learns (es : List Eff) : List Eff := es.filter fun | .learn .. => true | _ => false

/-- The extractors told of a successful prediction. -/
def acks (es : List Eff) : List Eff := es.filter fun | .ack .. => true | _ => false

/-- Input `x` is of interest to a target: they have a value in common or, if the target leaves something open, `x` matches
it, or has a value in common with what matched it before. -/
def Interested (E : Env) (t : Tpx) (x : In) : Prop :=
  E.shares t.target x.fact = true ∨
    (E.full t.target = false ∧
      ((∃ m ∈ t.maps, E.sharesVia t.target m x.fact = true) ∨ E.fits x.fact t.target = true))

/-- Input `x` is to be passed on. -/
def Relevant (E : Env) (s : St) (x : In) : Prop :=
  E.passThrough = true ∨ ∃ t ∈ s.goals ++ s.preds, Interested E t x

/-- Because of `x`, something observed before becomes of interest: `x` is the first match for a target, with which `y` then
has a value in common. -/
def Recalls (E : Env) (s : St) (x y : In) : Prop :=
  E.passThrough = false ∧ ∃ t ∈ s.goals ++ s.preds, E.full t.target = false ∧ E.shares t.target x.fact = false ∧
    (∀ m ∈ t.maps, E.sharesVia t.target m x.fact = false) ∧ E.fits x.fact t.target = true ∧
    E.sharesVia t.target x.fact y.fact = true

/-- What is shown at `now` is the input: the same fact, or one with the same content, sign and certainty that holds
now. -/
def Faithful (x : In) (now : Int) (o : Out) : Prop :=
  o.shown = .same x.fact ∨
    ∃ a b, o.shown = .copy x.payload x.positive x.cfd a b ∧ a ≤ now ∧ now ≤ b

/-- A program whose groups are there, distinct, and updated, at an instant after the start. -/
structure Env.Ok (E : Env) (now : Int) : Prop where
  some_ : E.groups ≠ []
  distinct : (E.groups.map Grp.id).Nodup
  updated : ∀ g ∈ E.groups, 0 < g.upr
  base : 0 < E.base
  tol : 0 ≤ E.tol
  started : E.ref ≤ now

/-- C109: when focus gets an input, every group gets it once if it is relevant, and no group otherwise; what is sent is the
input; and what was kept back before, is not too old, and becomes relevant is sent too, once, and nothing else. -/
def C109_full : Prop :=
  ∀ (E : Env) (now : Int) (s : St) (x : In), E.Ok now → (x.view :: s.cache.map (·.input.view)).Nodup →
    ∃ r, reduce E now s (.fact x) = some r ∧
      (∀ g ∈ E.groups, (Relevant E s x → sent r.2 x.view g.id = 1) ∧ (¬ Relevant E s x → sent r.2 x.view g.id = 0)) ∧
      (∀ o ∈ outs r.2, o.src = x.view → Faithful x now o) ∧
      (∀ o ∈ outs r.2, o.src ≠ x.view →
        ∃ c ∈ s.cache, o.src = c.input.view ∧ c.injected = false ∧ Recalls E s x c.input ∧ Faithful c.input now o) ∧
      (∀ c ∈ s.cache, c.injected = false → now - c.input.ijt ≤ E.thz → Recalls E s x c.input →
        ∀ g ∈ E.groups, sent r.2 c.input.view g.id = 1)

/-- How input `x` is passed on, where `g` is the first group: from the group it came from, with its injection time.
What is observed once is shown as it is. What is repeated is shown as a fact with the same content and sign, and certainty
one: over the current period of the first group or, if it is to hold, from twice the time tolerance after now until a
period after now. -/
structure Passed (E : Env) (now : Int) (g : Grp) (x : In) (o : Out) : Prop where
  src : o.src = x.view
  group : ∃ h ∈ E.groups, o.group = h.id
  org : o.org = some x.host
  ijt : o.ijt = x.ijt
  once : x.sync = .once → o.sync = .once ∧ o.shown = .same x.fact
  period : x.sync = .periodic ∨ x.sync = .axiom_ →
    o.sync = (if x.sync = .periodic then .periodic else .onceAxiom) ∧
      ∃ a b, o.shown = .copy x.payload x.positive 1 a b ∧ a ≤ now ∧ now < b ∧ b - a = g.upr * E.base ∧
        ∃ k : Int, a - E.ref = k * (g.upr * E.base)
  hold : x.sync = .hold →
    o.sync = .once ∧ o.shown = .copy x.payload x.positive 1 (now + 2 * E.tol) (now + g.upr * E.base)

/-- The views of the plain facts in a history. -/
def views (es : List (Int × Ev)) : List Nat := es.filterMap fun e => match e.2 with | .fact x => some x.view | _ => none

/-- No outcome, performance or instance is meant: the history has no performance facts, which are sent without being
chosen. -/
def NoPerf (es : List (Int × Ev)) : Prop := ∀ e ∈ es, ∀ x o, e.2 ≠ .perf x o

/-- C110: an input is sent to each group at most once. -/
def C110_full : Prop :=
  ∀ (E : Env) (es : List (Int × Ev)) (r : St × List (List Eff)), (E.groups.map Grp.id).Nodup → (views es).Nodup →
    NoPerf es → run E {} es = some r → ∀ v g, sent r.2.flatten v g ≤ 1

/-! ## Targets -/

/-- Whether the event makes target `t` one to be watched. -/
def produces (goal : Bool) (t : Nat) : Ev → Option Bool
  | .reduction g u wr => if g = goal ∧ u = t then some wr else none
  | _ => none

/-- The event is the outcome of `t`. -/
def settles (goal : Bool) (t : Nat) : Ev → Bool
  | .outcome g u _ _ => decide (g = goal ∧ u = t)
  | _ => false

/-- After the history, target `t` is open: it was produced, by a model that did (`wr`) or did not use a weak requirement,
and has had no outcome since. -/
def Open (es : List Ev) (goal : Bool) (t : Nat) (wr : Bool) : Prop :=
  ∃ pre e post, es = pre ++ e :: post ∧ produces goal t e = some wr ∧
    (∀ e' ∈ post, settles goal t e' = false) ∧
    (∀ pre' e' post', pre = pre' ++ e' :: post' → (produces goal t e').isSome → ∃ e'' ∈ post', settles goal t e'' = true)

/-- Learning is called for: goals when they succeed, predictions when they fail, if learning from these is on. -/
def Called (E : Env) (goal ok : Bool) : Prop :=
  if goal then E.gtpx = true ∧ ok = true else E.ptpx = true ∧ ok = false

/-- C111: at each event, learning jobs are pushed for exactly the targets that were open, were made without a weak
requirement, and have now the outcome that calls for it: one each. And a successful prediction is told to each open
goal made without a weak requirement, once, if learning is on. -/
def C111_full : Prop :=
  ∀ (E : Env) (es : List (Int × Ev)) (now : Int) (e : Ev) (s : St) (fs : List (List Eff)) (s' : St) (f : List Eff),
    run E {} es = some (s, fs) → reduce E now s e = some (s', f) →
    (∀ goal t o, ((∃ ok, e = .outcome goal t ok o ∧ Called E goal ok ∧ Open (es.map (·.2)) goal t false) →
        (learns f).count (.learn goal t o) = 1) ∧
      (¬ (∃ ok, e = .outcome goal t ok o ∧ Called E goal ok ∧ Open (es.map (·.2)) goal t false) →
        (learns f).count (.learn goal t o) = 0)) ∧
    (∀ t o, ((∃ u, e = .outcome false u true o) ∧ (E.gtpx = true ∨ E.ptpx = true) ∧ Open (es.map (·.2)) true t false →
        (acks f).count (.ack t o) = 1) ∧
      (¬ ((∃ u, e = .outcome false u true o) ∧ (E.gtpx = true ∨ E.ptpx = true) ∧ Open (es.map (·.2)) true t false) →
        (acks f).count (.ack t o) = 0))

/-! ## Watches -/

/-- The watch is given this input: it is a fact, not a goal of the system, and not older than the watch. -/
def Accepts (w : Watch) (x : Seen) : Bool := x.kind && !x.selfGoal && decide (w.since ≤ x.ijt)

/-- The inputs in the order in which the watch gets to work on them, with whether they are invalidated then; `q` are those
waiting. -/
def worked (w : Watch) : List Seen → List WEv → List Seen
  | _, [] => []
  | q, .give x :: es => worked w (if Accepts w x then q ++ [x] else q) es
  | [], .work _ :: es => worked w [] es
  | x :: q, .work dead :: es => { x with dead := dead } :: worked w q es

/-- What an input says of the watched fact. -/
inductive Tells
  | nothing | predicted | confirmed | changed
  deriving DecidableEq, Repr

/-- A prediction of a fact that confirms or contradicts the watched one predicts it; an observation confirms it or
says that it changed. The watched fact itself says nothing, and nor do invalidated inputs. -/
def tells (w : Watch) (x : Seen) : Tells :=
  if x.dead = true ∨ x.fact = w.target then .nothing
  else match x.pred, x.verdict with
    | some (true, .unrelated), _ => .nothing
    | some (true, _), _ => .predicted
    | some (false, _), _ => .nothing
    | none, .confirms => .confirmed
    | none, .contradicts => .changed
    | none, .unrelated => .nothing

/-- The first input that says something, with those before. -/
def decisive (w : Watch) : List Seen → Option Seen
  | [] => none
  | x :: xs => if tells w x = .nothing then decisive w xs else some x

/-- The watch is removed, without more, when the next value was predicted. A confirmed fact that is repeated at each period
is invalidated, being replaced; a change is learned from, and invalidates a fact that was to hold, with what it was
copied from. -/
def dueTo (w : Watch) (x : Seen) : List WEff :=
  match tells w x with
  | .nothing => []
  | .predicted => [.gone]
  | .confirmed => if w.hold then [.gone] else [.gone, .invalidate w.target]
  | .changed => if w.hold then [.gone, .learn x.view, .invalidate w.target, .invalidate w.source] else [.gone, .learn x.view]

/-- The input is kept as a possible cause: it is the watched fact, or an observation of something else. -/
def keeps (w : Watch) (x : Seen) : Bool :=
  !x.dead && (decide (x.fact = w.target) || (x.pred.isNone && decide (x.verdict = .unrelated)))

/-- The inputs before the first that says something. -/
def before (w : Watch) : List Seen → List Seen
  | [] => []
  | x :: xs => if tells w x = .nothing then x :: before w xs else []

/-- C112: whatever is given to a new watch and whenever it is worked on, what the watch causes is what is due to the
first input that says something of the watched fact, and it then ends; until then it keeps what may be a cause, the newest
first. -/
def C112_full : Prop :=
  ∀ (tol now : Int) (hold : Bool) (target source : Nat) (es : List WEv),
    let w := newWatch tol now hold target source
    let xs := worked w [] es
    let r := Queue.run ⟨w, []⟩ es
    r.2 = (match decisive w xs with | none => [] | some x => dueTo w x) ∧
      (r.1.watch.alive = true ↔ decisive w xs = none) ∧
      r.1.watch.stored = (((before w xs).filter (keeps w)).map Seen.view).reverse

end Verif.Focus
