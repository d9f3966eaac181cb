import Verif.CellList.Gc
/-!
# Requirements of a model

Transcription of `MDLController::retrieve_imdl_fwd`, `retrieve_imdl_bwd`,
`retrieve_simulated_imdl_fwd`, `retrieve_simulated_imdl_bwd`, `_store_requirement`
(`/repo/r_exec/mdl_controller.cpp:427-1092`) and of the decision taken on the answer
(`:141, 146-172, 219-228`). The caches are the `r_code::list`s of `Verif.CellList`.

Matching an entry against the instance being built starts afresh from the same bindings each time
(`HLPBindingMap _original(bm)`), so its outcome is a function of the entry: `Query.weak`
(`match_fwd_strict`), `Query.strong` (`match_fwd_lenient == MATCH_SUCCESS_NEGATIVE`) and
`Query.contra` (a weak entry against a strong one). Matching itself is modelled in `Verif.BindMap` and
`Verif.Match`. In the place of a binding map the results record the entry whose match made it.
-/
namespace Verif.Requirements
open Verif.CellList

/-- `RequirementEntry` (hlp_controller.h:115-131, mdl_controller.h:190-202). `id` stands for the
evidence, `aft`/`bef`/`cfd` are read from its target, `inv` is `evidence_->is_invalidated()`. -/
structure Entry where
  id : Nat
  inv : Bool
  aft : Nat
  bef : Nat
  cfd : Rat
  ctrl : Nat
  allowed : Bool
deriving DecidableEq, Repr

/-- `is_too_old` (hlp_controller.h:125-130). -/
def tooOld (now : Nat) (e : Entry) : Bool :=
  e.inv || (if e.aft = e.bef then e.bef < now else e.bef ≤ now)
/-- `is_out_of_range` (mdl_controller.h:201). -/
def outOfRange (now : Nat) (e : Entry) : Bool := e.bef < now || now < e.aft

/-- `ChainingStatus` (hlp_controller.h:97-103). -/
inductive Status | weakDisabled | strongNoWeak | strongDisabledWeak | weakEnabled | noRequirement
deriving DecidableEq, Repr

def Status.toNat : Status → Nat
  | .weakDisabled => 0 | .strongNoWeak => 1 | .strongDisabledWeak => 2 | .weakEnabled => 3
  | .noRequirement => 4

/-- The outcomes of matching, and whether an entry belongs to the simulation (`has_simulation`). -/
structure Query where
  weak : Entry → Bool
  strong : Entry → Bool
  contra : Entry → Entry → Bool
  inSim : Entry → Bool

/-- `BindingResult`: bindings from a weak entry, which is the ground, or from the strong one. -/
inductive Res | weak (e : Entry) | strong (ground : Option Entry)
deriving DecidableEq, Repr

/-- The local variables of the functions and what they return by reference: the status, the results,
the matching entries seen (`r_p`; of these the code keeps the set of controllers and the last one),
`strong_requirement_ground`, `ground`, `wr_enabled`, the entry whose bindings are loaded into `bm`, and
the entries whose consequence is invalidated. -/
structure Acc where
  r : Status
  results : List Res := []
  weak : List Entry := []
  strong : List Entry := []
  first : Option Entry := none
  ground : Option Entry := none
  wrEnabled : Bool := false
  loaded : Option Entry := none
  defeated : List Entry := []
deriving DecidableEq, Repr

/-- `negative_cfd`. -/
def Acc.negCfd (a : Acc) : Rat := match a.first with | some s => s.cfd | none => 0
/-- `strong_matches_weak`. -/
def Acc.contradicted (q : Query) (a : Acc) (e : Entry) : Bool :=
  match a.first with | some s => q.contra e s | none => false

/-- The two caches. -/
structure Caches where
  pos : St Entry
  neg : St Entry

/-! ## Forward -/

/-- mdl_controller.cpp:788-815 (weak requirements only). -/
def fwdWeak (q : Query) (now : Nat) (a : Acc) (e : Entry) : Acc :=
  if outOfRange now e then a
  else if q.weak e then
    let a := if e.allowed then { a with r := .weakEnabled, results := a.results ++ [.weak e] } else a
    { a with weak := a.weak ++ [e] }
  else a

/-- mdl_controller.cpp:828-845 (strong requirements only) and 862-886 (both); `r0` is the initial
status. (`first` is not recorded in the former, nor used.) -/
def fwdStrong (q : Query) (now : Nat) (r0 : Status) (a : Acc) (e : Entry) : Acc :=
  if outOfRange now e then a
  else if q.strong e then
    let a := if a.r = r0 ∧ e.allowed then { a with r := .strongNoWeak, first := some e } else a
    { a with strong := a.strong ++ [e] }
  else a

/-- mdl_controller.cpp:906-946 (both). -/
def fwdBoth (q : Query) (now : Nat) (a : Acc) (e : Entry) : Acc :=
  if outOfRange now e then a
  else if q.weak e then
    let a :=
      if e.allowed then
        let smw := a.contradicted q e
        if !smw || decide (a.negCfd < e.cfd) then
          { a with r := .weakEnabled, results := a.results ++ [.weak e], wrEnabled := smw }
        else if a.r ≠ .weakEnabled then
          { a with ground := some e, r := .strongDisabledWeak, wrEnabled := false }
        else a
      else a
    { a with weak := a.weak ++ [e] }
  else a

/-- The loop over the strong requirements when there are no weak ones (mdl_controller.cpp:823-846).
Line 827 erases from the other cache: `e = requirements_.positive_evidences_.erase(e)` with `e` in
`negative_evidences_`; the iterator returned then walks the positive cache. `onNeg` says which list the
iterator belongs to. -/
def fwdStrongOnly (q : Query) (now : Nat) : Nat → Caches → Bool → Option Nat → Acc → Option (Acc × Caches)
  | _, c, _, none, a => some (a, c)
  | 0, _, _, some _, _ => none
  | k + 1, c, onNeg, some i, a =>
    match (if onNeg then c.neg else c.pos).cell i with
    | none => none
    | some x =>
      if tooOld now x.data then
        match eraseNext c.pos i with
        | none => none
        | some (nx, pos') => fwdStrongOnly q now k { c with pos := pos' } false nx a
      else fwdStrongOnly q now k c onNeg x.next (fwdStrong q now .noRequirement a x.data)

/-- The end of the functions when there are both kinds (mdl_controller.cpp:949-950). -/
def finish (a : Acc) : Acc :=
  if a.r = .strongNoWeak ∨ a.r = .strongDisabledWeak then
    { a with results := a.results ++ [.strong a.ground] } else a

/-- `retrieve_imdl_fwd` (mdl_controller.cpp:755-955), with `wr` weak and `sr` strong requirements. -/
def fwd (q : Query) (now wr sr fuel : Nat) (c : Caches) : Option (Acc × Caches) :=
  if wr + sr = 0 then some ({ r := .noRequirement }, c)
  else if sr = 0 then
    match gcAll (tooOld now) (fun a e => (fwdWeak q now a e, false)) c.pos { r := .weakDisabled } with
    | none => none
    | some (a, _, pos') => some (a, { c with pos := pos' })
  else if wr = 0 then fwdStrongOnly q now fuel c true c.neg.head { r := .noRequirement }
  else
    match gcAll (tooOld now) (fun a e => (fwdStrong q now .weakDisabled a e, false)) c.neg
        { r := .weakDisabled } with
    | none => none
    | some (a, _, neg') =>
      match gcAll (tooOld now) (fun a e => (fwdBoth q now a e, false)) c.pos a with
      | none => none
      | some (a, _, pos') => some (finish a, ⟨pos', neg'⟩)

/-- Chaining is allowed (mdl_controller.cpp:142: `c_s >= WEAK_REQUIREMENT_ENABLED`; 222-226). -/
def fires (r : Status) : Bool := decide (3 ≤ r.toNat)

/-! ## Backward -/

/-- mdl_controller.cpp:1043-1067 (both). -/
def bwdBoth (q : Query) (a : Acc) (e : Entry) : Acc :=
  if q.weak e then
    if !a.contradicted q e || decide (a.negCfd < e.cfd) then
      if a.r ≠ .weakEnabled then { a with r := .weakEnabled, loaded := some e, ground := some e } else a
    else if a.r ≠ .weakEnabled then { a with ground := some e, r := .strongDisabledWeak }
    else a
  else a

/-- `retrieve_imdl_bwd` (mdl_controller.cpp:957-1092). -/
def bwd (q : Query) (now wr sr : Nat) (c : Caches) : Option (Acc × Caches) :=
  if wr + sr = 0 then some ({ r := .noRequirement }, c)
  else if sr = 0 then
    match gcAll (tooOld now) (fun a e => if q.weak e then
        ({ a with r := .weakEnabled, loaded := some e, ground := some e }, true) else (a, false))
        c.pos ({ r := .weakDisabled } : Acc) with
    | none => none
    | some (a, _, pos') => some (a, { c with pos := pos' })
  else if wr = 0 then
    match gcAll (tooOld now) (fun a e => if q.strong e then
        ({ a with r := .strongNoWeak, first := some e }, true) else (a, false))
        c.neg ({ r := .noRequirement } : Acc) with
    | none => none
    | some (a, _, neg') => some (a, { c with neg := neg' })
  else
    match gcAll (tooOld now) (fun a e => if q.strong e then
        ({ a with r := .strongNoWeak, first := some e }, true) else (a, false))
        c.neg ({ r := .weakDisabled } : Acc) with
    | none => none
    | some (a, _, neg') =>
      match gcAll (tooOld now) (fun a e => (bwdBoth q a e, false)) c.pos a with
      | none => none
      | some (a, _, pos') => some (a, ⟨pos', neg'⟩)

/-! ## Simulated, forward -/

/-- mdl_controller.cpp:465-481 (weak only). -/
def simFwdWeak (q : Query) (a : Acc) (e : Entry) : Acc :=
  if q.inSim e && q.weak e then { a with r := .weakEnabled, results := a.results ++ [.weak e] } else a

/-- mdl_controller.cpp:551-577 (both). -/
def simFwdBoth (q : Query) (a : Acc) (e : Entry) : Acc :=
  if q.inSim e && q.weak e then
    if !a.contradicted q e || decide (a.negCfd < e.cfd) then
      { a with r := .weakEnabled, results := a.results ++ [.weak e] }
    else if a.r ≠ .weakEnabled then { a with ground := some e, r := .strongDisabledWeak }
    else a
  else a

/-- `retrieve_simulated_imdl_fwd` (mdl_controller.cpp:444-591). -/
def simFwd (q : Query) (now wr sr : Nat) (c : Caches) : Option (Acc × Caches) :=
  if wr + sr = 0 then some ({ r := .noRequirement }, c)
  else if sr = 0 then
    match gcAll (tooOld now) (fun a e => (simFwdWeak q a e, false)) c.pos { r := .weakDisabled } with
    | none => none
    | some (a, _, pos') => some (a, { c with pos := pos' })
  else if wr = 0 then
    match gcAll (tooOld now) (fun a e => if q.inSim e && q.strong e then
        ({ a with r := .strongNoWeak, results := a.results ++ [.strong none] }, true) else (a, false))
        c.neg ({ r := .noRequirement } : Acc) with
    | none => none
    | some (a, _, neg') => some (a, { c with neg := neg' })
  else
    match gcAll (tooOld now) (fun a e => if q.inSim e && q.strong e then
        ({ a with r := .strongNoWeak, first := some e }, true) else (a, false))
        c.neg ({ r := .weakDisabled } : Acc) with
    | none => none
    | some (a, _, neg') =>
      match gcAll (tooOld now) (fun a e => (simFwdBoth q a e, false)) c.pos a with
      | none => none
      | some (a, _, pos') => some (finish a, ⟨pos', neg'⟩)

/-! ## Simulated, backward -/

/-- The strong requirement ends before the weak one begins (mdl_controller.cpp:709). -/
def Acc.over (a : Acc) (e : Entry) : Bool :=
  match a.first with | some s => decide (s.bef ≤ e.aft) | none => false
/-- The strong requirement begins before the weak one ends (mdl_controller.cpp:720-721). -/
def Acc.begun (a : Acc) (e : Entry) : Bool :=
  match a.first with | some s => decide (s.aft < e.bef) | none => false

/-- mdl_controller.cpp:697-735 (both). -/
def simBwdBoth (q : Query) (a : Acc) (e : Entry) : Acc :=
  if q.inSim e && q.weak e then
    if !a.contradicted q e || decide (a.negCfd < e.cfd) || a.over e then
      if a.r ≠ .weakEnabled then { a with r := .weakEnabled, loaded := some e, ground := some e } else a
    else if a.begun e then
      let a := { a with defeated := a.defeated ++ [e] }
      if a.r ≠ .weakEnabled then { a with ground := some e, r := .strongDisabledWeak } else a
    else a
  else a

/-- `retrieve_simulated_imdl_bwd` (mdl_controller.cpp:593-752). In the last case `bm` is loaded from
the strong entry if there is one and no weak requirement is enabled. -/
def simBwd (q : Query) (now wr sr : Nat) (c : Caches) : Option (Acc × Caches) :=
  if wr + sr = 0 then some ({ r := .noRequirement }, c)
  else if sr = 0 then
    match gcAll (tooOld now) (fun a e => if q.inSim e && q.weak e then
        ({ a with r := .weakEnabled, loaded := some e, ground := some e }, true) else (a, false))
        c.pos ({ r := .weakDisabled } : Acc) with
    | none => none
    | some (a, _, pos') => some (a, { c with pos := pos' })
  else if wr = 0 then
    match gcAll (tooOld now) (fun a e => if q.inSim e && q.strong e then
        ({ a with r := .strongNoWeak, loaded := some e, first := some e }, true) else (a, false))
        c.neg ({ r := .noRequirement } : Acc) with
    | none => none
    | some (a, _, neg') => some (a, { c with neg := neg' })
  else
    match gcAll (tooOld now) (fun a e => if q.inSim e && q.strong e then
        ({ a with r := .strongNoWeak, first := some e }, true) else (a, false))
        c.neg ({ r := .weakDisabled } : Acc) with
    | none => none
    | some (a, _, neg') =>
      match gcAll (tooOld now) (fun a e => (simBwdBoth q a e, false)) c.pos a with
      | none => none
      | some (a, _, pos') =>
        some (if a.r = .strongNoWeak ∨ a.r = .strongDisabledWeak then { a with loaded := a.first } else a,
          ⟨pos', neg'⟩)

/-- `_store_requirement` (mdl_controller.cpp:427-442): old entries are collected, the new one is put in
front. -/
def storeReq (now : Nat) (s : St Entry) (e : Entry) : Option (St Entry) :=
  match gcAll (tooOld now) (fun (a : Unit) _ => (a, false)) s () with
  | none => none
  | some (_, _, s') => pushFront s' e

end Verif.Requirements
