import Mathlib.Data.Rat.Init
/-!
# Assuming in a simulation that what is the case goes on

Transcription of the part of `CSTOverlay::reduce` that promotes facts to the time of a prediction in a
simulation (`/repo/r_exec/cst_controller.cpp:279-396`), with `Pred::Pred(target, simulations_source, …)`
(`/repo/r_exec/factory.cpp:550-573`), `has_original_fact` (806-813), `is_evidence` and
`is_timeless_evidence` (441-485, 246-262) and `HLPController::inject_prediction`
(`/repo/r_exec/hlp_controller.cpp:190-203`).

How objects match and which ones are counter-evidence is `Verif.Evidence`; here these are any two
relations.  Simulations, validities, facts and objects are addresses.  Overlays come and go with any saved
inputs: a step is an overlay, as it is, and an input.  The lock of a simulation is held during a step.
-/
namespace Verif.Promote

/-- A fact or an |fact. -/
structure Fact where
  obj : Nat
  pos : Bool := true
  after : Int
  before : Int
  cfd : Rat := 1
deriving DecidableEq, Repr

/-- `MatchObject` and `CounterEvidence` (factory.cpp:364-439). -/
structure Rel where
  same : Nat → Nat → Bool
  counter : Nat → Nat → Bool

/-- `target->match_timings_overlap(f)` (factory.cpp:244-252). -/
def overlap (f target : Fact) : Bool := !(decide (f.after ≥ target.before) || decide (f.before ≤ target.after))

/-- `target->match_timings_inclusive(f)` (factory.cpp:254-262). -/
def covers (f target : Fact) : Bool := decide (f.after ≤ target.after) && decide (f.before ≥ target.before)

/-- `f->is_evidence(target) != MATCH_FAILURE` (factory.cpp:441-463). -/
def evidence (R : Rel) (f target : Fact) : Bool :=
  if R.same f.obj target.obj then overlap f target
  else f.pos && covers f target && R.counter f.obj target.obj

/-- `f->is_timeless_evidence(target) != MATCH_FAILURE` (factory.cpp:465-485). -/
def timeless (R : Rel) (f target : Fact) : Bool :=
  R.same f.obj target.obj || f.pos && R.counter f.obj target.obj

/-- `Sim::DefeasiblePromotedFact` (factory.h:315-342): the original fact, the target of the promoted prediction,
the validity. -/
structure Prom where
  orig : Nat
  f : Fact
  val : Nat
deriving DecidableEq, Repr

/-- `defeasible_promoted_facts_` and `defeating_facts_` of a simulation. -/
structure Sm where
  proms : List Prom := []
  beaten : List Fact := []
deriving DecidableEq, Repr

/-- A saved input: the fact, or the target of the prediction (`id` is its address); whether it is about an
instance of a composite state; the validities of the prediction, which the code does not look at here. -/
structure Saved where
  id : Nat
  f : Fact
  icst : Bool := false
  vals : List Nat := []
deriving DecidableEq, Repr

/-- An overlay: `simulations_`, `non_axiom_inputs_`, `get_fwd_before()` if there is one, `promoted_in_sim_`. -/
structure Ov where
  sims : List Nat := []
  saved : List Saved := []
  fwdBefore : Option Int := none
  done : List Nat := []
deriving DecidableEq, Repr

/-- An input that is a prediction: its target, the confidence of the fact of the prediction, simulations,
validities, `is_promoted_`. -/
structure In where
  f : Fact
  cfd : Rat := 1
  sims : List Nat
  vals : List Nat := []
  promoted : Bool := false
deriving DecidableEq, Repr

/-- A prediction that is made: for which saved input, its target, simulations, validities, its own one among
them, saliency. -/
structure Made where
  orig : Nat
  f : Fact
  sims : List Nat
  vals : List Nat
  val : Nat
  sal : Rat
deriving DecidableEq, Repr

/-- The simulations, the validities invalidated, the next new validity. -/
structure State where
  sims : Nat → Sm := fun _ => {}
  dead : List Nat := []
  next : Nat := 0

/-- Whether the input is examined, and the simulation (cst_controller.cpp:287-299). -/
def examined (o : Ov) (p : In) : Option Nat :=
  match p.sims with
  | [s] => if !p.promoted && (o.sims == [] || o.sims == [s]) then some s else none
  | _ => none

/-- The input defeats what has been promoted (cst_controller.cpp:304-322). -/
def defeat (R : Rel) (f : Fact) (m : Sm) : Sm × List Nat :=
  let hit := m.proms.filter fun d => evidence R f d.f
  (⟨m.proms.filter fun d => !evidence R f d.f, m.beaten ++ hit.map fun _ => f⟩, hit.map (·.val))

/-- `input_is_later`, and not yet promoted in the simulation (cst_controller.cpp:325-327). -/
def promotes (o : Ov) (p : In) (s : Nat) : Bool :=
  decide (p.f.before > p.f.after) && (match o.fwdBefore with | none => false | some b => decide (p.f.after ≥ b)) && !o.done.contains s

/-- The fact with the timings of the input (cst_controller.cpp:352-356). -/
def moved (p : In) (s : Saved) : Fact := ⟨s.f.obj, s.f.pos, p.f.after, p.f.before, s.f.cfd⟩

/-- One turn of the loop over the saved inputs (cst_controller.cpp:333-391). -/
def promote (R : Rel) (thr : Rat) (p : In) (m : Sm) (next : Nat) (s : Saved) : Option Made :=
  if s.icst then none
  else if m.proms.any fun d => d.orig == s.id then none
  else if timeless R s.f p.f then none
  else if m.beaten.any fun f => evidence R (moved p s) f then none
  else if p.cfd > thr then some ⟨s.id, moved p s, p.sims, p.vals ++ [next], next, p.cfd⟩
  else none

/-- The loop. -/
def loop (R : Rel) (thr : Rat) (p : In) : Sm → Nat → List Saved → Sm × Nat × List Made
  | m, next, [] => (m, next, [])
  | m, next, s :: ss => match promote R thr p m next s with
    | none => loop R thr p m next ss
    | some d =>
      let (m, n, ds) := loop R thr p { m with proms := ⟨d.orig, d.f, d.val⟩ :: m.proms } (next + 1) ss
      (m, n, d :: ds)

/-- An overlay and an input. -/
structure Step where
  o : Ov
  p : In
deriving DecidableEq, Repr

/-- The part of `reduce` (cst_controller.cpp:279-396): the new state and the predictions injected. -/
def step (R : Rel) (thr : Rat) (σ : State) (e : Step) : State × List Made :=
  match examined e.o e.p with
  | none => (σ, [])
  | some s =>
    let (m, ds) := defeat R e.p.f (σ.sims s)
    if promotes e.o e.p s then
      let (m, n, os) := loop R thr e.p m σ.next e.o.saved
      (⟨fun x => if x = s then m else σ.sims x, σ.dead ++ ds, n⟩, os)
    else (⟨fun x => if x = s then m else σ.sims x, σ.dead ++ ds, σ.next⟩, [])

/-- What the overlay remembers (cst_controller.cpp:329). -/
def marks (e : Step) : List Nat :=
  match examined e.o e.p with
  | none => e.o.done
  | some s => if promotes e.o e.p s then e.o.done ++ [s] else e.o.done

/-- After a history. -/
def after (R : Rel) (thr : Rat) (es : List Step) : State := es.foldl (fun σ e => (step R thr σ e).1) {}

/-- What the step after a history makes. -/
def outs (R : Rel) (thr : Rat) (es : List Step) (e : Step) : List Made := (step R thr (after R thr es) e).2

end Verif.Promote
