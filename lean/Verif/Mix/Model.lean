/-!
# Composite states and simulations

Transcription of `CSTOverlay::bind_pattern` (`/repo/r_exec/cst_controller.cpp:448-500`) with its checks on simulations, of
`get_offspring` and `update` (200-245), `get_simulation` (502-510) and of the parts of `reduce` that tell the simulation
of an input and take the input (279-295, 398-446).

What is left out is elsewhere: inputs that are invalidated or taken already and the deadline (`Verif.Cst`), promoted facts
(`Verif.Promote`), and what is made of an overlay that is complete (`Verif.Icst`).  As in `Verif.Cst` the match of an input with a
pattern is any function; `bind r b i p` is what `load`, `reset_fwd_timings` when `r`, and `match_fwd_strict` leave in the map.
Guards hold.  Objects, patterns, simulations and controllers are addresses.  `simulations_` is a list without order in mind; its
first element is only looked at when there is one.
-/
namespace Verif.Mix

/-- An input: the simulations of the prediction, none if it is a fact or a prediction that is not simulated; the times of its target. -/
structure Input where
  id : Nat
  sims : List Nat := []
  after : Int
  before : Int
deriving DecidableEq, Repr

/-- What the overlays of a composite state depend on: matching, the times in a map, and for a simulation `root_` and the `root_` of
`get_root_sim()`. -/
structure Lang (B : Type) where
  bind : Bool → B → Input → Nat → Option B
  fwdAfter : B → Int
  fwdBefore : B → Int
  root : Nat → Nat
  rootOf : Nat → Nat

/-- `CSTOverlay` (cst_controller.h:106-125). -/
structure Overlay (B : Type) where
  axPats : List Nat
  nonPats : List Nat
  axIns : List Input := []
  nonIns : List Input := []
  sims : List Nat := []
  binds : B
deriving DecidableEq

/-- `predictionSimulation` (lines 281-290): there is none when the prediction has several. -/
def simOf (i : Input) : Option Nat :=
  match i.sims with
  | [s] => some s
  | _ => none

/-- Lines 452-476: nothing if the input is refused; else whether the times of the map are set from the input. -/
def admit {B : Type} (l : Lang B) (o : Overlay B) (i : Input) : Option Bool :=
  let first := o.axIns.length + o.nonIns.length == 0
  match simOf i with
  | none => some first
  | some s =>
    if o.sims.length > 1 then none
    else if o.sims.length = 1 ∧ o.sims.head? ≠ some s then none
    else if o.axIns.length > 0 ∧ o.nonIns.length = 0 then
      if i.after < l.fwdBefore o.binds ∧ i.before > l.fwdAfter o.binds then some first
      else if i.before ≤ l.fwdAfter o.binds then none
      else some true
    else some first

/-- `bind_pattern`: the first pattern that matches, axioms first (478-497). -/
def bindPattern {B : Type} (l : Lang B) (o : Overlay B) (i : Input) : Option (Nat × Bool × B) :=
  (admit l o i).bind fun r =>
    match o.axPats.findSome? fun p => (l.bind r o.binds i p).map fun b => (p, true, b) with
    | some x => some x
    | none => o.nonPats.findSome? fun p => (l.bind r o.binds i p).map fun b => (p, false, b)

/-- Lines 229-234: the simulations of the input are added, one for each root. -/
def addSims {B : Type} (l : Lang B) : List Nat → List Nat → List Nat
  | acc, [] => acc
  | acc, s :: ss =>
    if acc.any (fun t => l.root t == l.rootOf s) then addSims l acc ss
    else addSims l (if s ∈ acc then acc else acc ++ [s]) ss

/-- `update` (215-245; the confidence and the validities are in other areas). -/
def update {B : Type} (l : Lang B) (o : Overlay B) (b : B) (i : Input) (ax : Bool) : Overlay B :=
  { o with
    binds := b
    axIns := if ax then o.axIns ++ [i] else o.axIns
    nonIns := if ax then o.nonIns else o.nonIns ++ [i]
    sims := addSims l o.sims i.sims }

/-- Lines 398-446: the overlay that has taken the input, and the offspring, which is a copy of the overlay as it was.  With one
pattern left the overlay is complete, and the pattern is not removed (408, 420). -/
def reduce {B : Type} (l : Lang B) (o : Overlay B) (i : Input) : Option (Overlay B × Overlay B) :=
  (bindPattern l o i).map fun x =>
    let last := o.axPats.length + o.nonPats.length == 1
    (update l { o with
        axPats := if !last && x.2.1 then o.axPats.erase x.1 else o.axPats
        nonPats := if !last && !x.2.1 then o.nonPats.erase x.1 else o.nonPats } x.2.2 i x.2.1, o)

end Verif.Mix
