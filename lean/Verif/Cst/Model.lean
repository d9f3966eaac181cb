/-!
# Composite states

`CSTOverlay` and the forward part of `CSTController` (r_exec/cst_controller.cpp:94-135, 200-245,
247-507, 513-538, 543-608), and `HLPController::become_invalidated` (hlp_controller.cpp:261-286).

Left out: inputs that are simulated predictions (the promotion of facts, lines 289-396, and the
checks of `bind_pattern` on simulations, lines 454-475), confidences, and what is done with an
instance once it is made. The binding of an input to a pattern is any function: `bind first b i p`
is what `map->load(bindings_)`, `reset_fwd_timings` when `first`, and `match_fwd_strict(input, p)`
leave in the new map, or nothing when the match fails (lines 477-496). Guards are any function on
maps. Objects and patterns are identified by their addresses.
-/
namespace Verif.Cst

/-- What the overlays of one composite state depend on. -/
structure Lang (B : Type) where
  /-- lines 482-486 and 490-494 -/
  bind : Bool → B → Nat → Nat → Option B
  /-- `evaluate_fwd_guards` (hlp_overlay.cpp:133-153), which may update the map. -/
  guard : B → Option B
  /-- `get_fwd_before`, zero standing for no deadline (lines 211, 132). -/
  fwdBefore : B → Nat

/-- `CSTOverlay` (cst_controller.h:107-131). `hasCode`: `code_` is not null. `used` is not in the
program: it records which input was taken for which pattern. -/
structure Overlay (B : Type) where
  axPats : List Nat
  nonPats : List Nat
  axIns : List Nat
  nonIns : List Nat
  binds : B
  deadline : Nat
  invalid : Bool
  hasCode : Bool
  used : List (Nat × Nat)
  deriving DecidableEq

/-- `CSTOverlay(c, bindings)` and `load_patterns` (lines 96-97, 114-128). The base class loads the
code (hlp_overlay.cpp:112-113, overlay.cpp:108-113). -/
def master {B : Type} (axPats nonPats : List Nat) (b : B) : Overlay B :=
  ⟨axPats, nonPats, [], [], b, 0, false, true, []⟩

/-- The copy constructor (lines 99-110): through the same base class, so the code is loaded and the
copy is valid. -/
def Overlay.copy {B : Type} (o : Overlay B) : Overlay B := { o with invalid := false, hasCode := true }

/-- `can_match` (lines 130-135). -/
def Overlay.canMatch {B : Type} (o : Overlay B) (now : Nat) : Bool :=
  o.deadline == 0 || decide (now ≤ o.deadline)

/-- `update` (lines 215-221). -/
def Overlay.update {B : Type} (o : Overlay B) (b : B) (i p : Nat) (ax : Bool) : Overlay B :=
  { o with
    binds := b
    axIns := if ax then o.axIns ++ [i] else o.axIns
    nonIns := if ax then o.nonIns else o.nonIns ++ [i]
    used := o.used ++ [(i, p)] }

/-- `get_offspring` (lines 200-213): the copy, and the overlay taking the input. `remove`: a pattern
was given. `r_code::list::remove` takes the first one off. -/
def Overlay.offspring {B : Type} (l : Lang B) (o : Overlay B) (b : B) (i p : Nat) (ax remove : Bool) :
    Overlay B × Overlay B :=
  (o.copy,
   ({ o with
      axPats := if remove && ax then o.axPats.erase p else o.axPats
      nonPats := if remove && !ax then o.nonPats.erase p else o.nonPats
      deadline := if o.deadline = 0 then l.fwdBefore b else o.deadline }).update b i p ax)

/-- The loops of `bind_pattern` (lines 477-496): the first pattern that matches, axioms first. -/
def Overlay.bindPattern {B : Type} (l : Lang B) (o : Overlay B) (i : Nat) : Option (Nat × Bool × B) :=
  let first := o.axIns.length + o.nonIns.length == 0
  match o.axPats.findSome? fun p => (l.bind first o.binds i p).map fun b => (p, true, b) with
  | some r => some r
  | none => o.nonPats.findSome? fun p => (l.bind first o.binds i p).map fun b => (p, false, b)

/-- The scans of lines 255-288: nothing, a component is invalidated, or the input is a component. -/
inductive Scan | clear | dead | dup
  deriving DecidableEq
def scan (dead : Nat → Bool) (i : Nat) : List Nat → Scan
  | [] => .clear
  | c :: cs => if dead c then .dead else if i = c then .dup else scan dead i cs
def Overlay.scan {B : Type} (o : Overlay B) (dead : Nat → Bool) (i : Nat) : Scan :=
  match Cst.scan dead i o.axIns with
  | .clear => Cst.scan dead i o.nonIns
  | r => r

/-- The result of `CSTOverlay::reduce`: the overlay, the offspring and the instance. -/
structure Red (B : Type) where
  this : Overlay B
  off : Option (Overlay B)
  prod : Option (Overlay B)
  deriving DecidableEq

/-- `CSTOverlay::reduce` (lines 247-446), `dead` telling which objects are invalidated. An instance
is the overlay it is made from. -/
def Overlay.reduce {B : Type} (l : Lang B) (o : Overlay B) (dead : Nat → Bool) (i : Nat) : Red B :=
  if dead i then ⟨o, none, none⟩
  else
    match o.scan dead i with
    | .dead => ⟨{ o with invalid := true }, none, none⟩
    | .dup => ⟨o, none, none⟩
    | .clear =>
      match o.bindPattern l i with
      | none => ⟨o, none, none⟩
      | some (p, ax, b) =>
        if o.axPats.length + o.nonPats.length = 1 then
          if !o.hasCode then
            match l.guard b with
            | some b' =>
              let r := ({ o with hasCode := true, binds := b' }).offspring l b' i p ax false
              ⟨{ r.2 with invalid := true }, some r.1, some r.2⟩
            | none => ⟨{ o with binds := b, hasCode := false }, none, none⟩
          else
            let r := o.offspring l b i p ax false
            ⟨{ r.2 with invalid := true }, some r.1, some r.2⟩
        else
          let r := o.offspring l b i p ax true
          ⟨r.2, some r.1, none⟩

/-- An input at a time, with the objects invalidated by then. -/
structure Event where
  now : Nat
  inp : Nat
  dead : Nat → Bool

/-- The loop of `CSTController::reduce` (lines 585-604): the overlays kept, the offspring pushed to
the front and the instances, in the order they are made. -/
def loop {B : Type} (l : Lang B) (e : Event) : List (Overlay B) →
    List (Overlay B) × List (Overlay B) × List (Overlay B)
  | [] => ([], [], [])
  | o :: os =>
    let r := loop l e os
    if !o.canMatch e.now then r
    else if o.invalid then r
    else
      let x := o.reduce l e.dead e.inp
      (x.this :: r.1, x.off.toList ++ r.2.1, x.prod.toList ++ r.2.2)

/-- The controller: its overlays and the instances made so far. -/
structure Ctl (B : Type) where
  overlays : List (Overlay B)
  made : List (Overlay B)

def Ctl.step {B : Type} (l : Lang B) (c : Ctl B) (e : Event) : Ctl B :=
  if e.dead e.inp then c
  else
    let r := loop l e c.overlays
    ⟨r.2.1.reverse ++ r.1, c.made ++ r.2.2⟩

/-- The constructor's overlay (lines 515-517). -/
def Ctl.init {B : Type} (axPats nonPats : List Nat) (b : B) : Ctl B :=
  ⟨[master axPats nonPats b], []⟩

def run {B : Type} (l : Lang B) (c : Ctl B) (es : List Event) : Ctl B := es.foldl (Ctl.step l) c

/-! ## Sub-models -/

/-- A pattern as the constructor sees it: about an instance of a model or composite state, whose
view in the host, if any, has this controller; or about something else. -/
inductive Pat | other | hlp (controller : Option Nat)
  deriving DecidableEq

/-- The constructor's loop (lines 519-537): every round reads `obj_set_index + 1`. -/
def subControllers (pats : List Pat) : List Nat :=
  (List.range pats.length).filterMap fun (_ : Nat) =>
    match pats[0]? with
    | some (Pat.hlp (some c)) => some c
    | _ => none

/-- The part of the controller that `become_invalidated` uses. -/
structure Life where
  invalid : Bool
  subs : List Nat
  tplArgs : Bool
  refCount : Nat
  lastRefCount : Nat
  deriving DecidableEq

/-- `HLPController::become_invalidated` (hlp_controller.cpp:261-286) with `kill_views`
(cst_controller.cpp:784-788), which invalidates the controller (hlp_controller.cpp:108-112). -/
def becomeInvalidated (dead : Nat → Bool) (s : Life) : Life × Bool :=
  if s.invalid then (s, true)
  else if s.subs.any dead then ({ s with invalid := true, subs := [] }, true)
  else if s.tplArgs then
    if s.refCount = 1 ∧ 1 < s.lastRefCount then ({ s with invalid := true, subs := [] }, true)
    else ({ s with lastRefCount := s.refCount }, false)
  else (s, false)

end Verif.Cst
