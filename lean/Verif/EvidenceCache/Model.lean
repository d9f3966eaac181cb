import Verif.CellList.Gc
/-!
# Evidence caches

`HLPController::_store_evidence` (`/repo/r_exec/hlp_controller.h:143-163`), `EvidenceEntry::is_too_old`
(`:125-130`), `check_evidences` and `check_predicted_evidences`
(`/repo/r_exec/hlp_controller.cpp:205-259`), on the `r_code::list` of `Verif.CellList`.

Simplifications: a fact is a number; its timings and confidence are given by a table `F` and do not
change; whether and how it matches a target is a function of the fact (`is_evidence` is modelled in
`Verif.Evidence`). The two caches of a controller are of the same class; one is modelled.
-/
namespace Verif.EvidenceCache
open Verif.CellList

/-- What an entry copies from a fact (`load_data`, hlp_controller.cpp). -/
structure Fact where
  aft : Nat
  bef : Nat
  cfd : Rat

/-- `EvidenceEntry`: the fact, with its timings at the time of storing. -/
structure Entry where
  id : Nat
  aft : Nat
  bef : Nat
deriving DecidableEq, Repr

/-- `is_too_old` (hlp_controller.h:125-130). -/
def tooOld (inv : Nat → Bool) (now : Nat) (e : Entry) : Bool :=
  inv e.id || (if e.aft = e.bef then e.bef < now else e.bef ≤ now)

/-- The loop of `_store_evidence` (hlp_controller.h:148-159): `true` if the evidence is already there. -/
def storeLoop (inv : Nat → Bool) (now id : Nat) : Nat → St Entry → Option Nat → Option (Bool × St Entry)
  | _, s, none => some (false, s)
  | 0, _, some _ => none
  | k + 1, s, some i =>
    match s.cell i with
    | none => none
    | some c =>
      if c.data.id = id then some (true, s)
      else if tooOld inv now c.data then
        match eraseNext s i with
        | none => none
        | some (nx, s') => storeLoop inv now id k s' nx
      else storeLoop inv now id k s c.next

/-- `_store_evidence` (hlp_controller.h:143-163). -/
def store (F : Nat → Fact) (inv : Nat → Bool) (now id : Nat) (s : St Entry) : Option (St Entry) :=
  match storeLoop inv now id s.n s s.head with
  | none => none
  | some (true, s') => some s'
  | some (false, s') => pushFront s' ⟨id, (F id).aft, (F id).bef⟩

/-- `MatchResult`. -/
inductive Res | failure | negative | positive
deriving DecidableEq, Repr

/-- `check_evidences` (hlp_controller.cpp:205-229) for a target the facts match as `m` says: the answer
with the evidence, or `none` for a failure. -/
def check (inv : Nat → Bool) (now : Nat) (m : Nat → Res) (s : St Entry) : Option (Option (Nat × Res) × St Entry) :=
  match gcAll (tooOld inv now)
      (fun (x : Option (Nat × Res)) e => if m e.id ≠ .failure then (some (e.id, m e.id), true) else (x, false)) s none with
  | none => none
  | some (x, _, s') => some (x, s')

/-- `check_predicted_evidences` (hlp_controller.cpp:231-259): the evidence must also be more confident
than the target. -/
def checkPred (F : Nat → Fact) (inv : Nat → Bool) (now : Nat) (m : Nat → Res) (cfd : Rat) (s : St Entry) :
    Option (Option (Nat × Res) × St Entry) :=
  match gcAll (tooOld inv now)
      (fun (x : Option (Nat × Res)) e =>
        if m e.id ≠ .failure ∧ cfd < (F e.id).cfd then (some (e.id, m e.id), true) else (x, false)) s none with
  | none => none
  | some (x, _, s') => some (x, s')

/-- What happens to a cache: each with the time at which it happens. -/
inductive Op
  | store (id : Nat)
  | check (m : Nat → Res)
  | checkPred (m : Nat → Res) (cfd : Rat)
  | invalidate (id : Nat)

structure World where
  cache : St Entry
  inv : Nat → Bool

def start : World := ⟨empty, fun _ => false⟩

def step (F : Nat → Fact) (w : World) (now : Nat) : Op → Option World
  | .store id => (store F w.inv now id w.cache).map fun c => { w with cache := c }
  | .check m => (check w.inv now m w.cache).map fun r => { w with cache := r.2 }
  | .checkPred m cfd => (checkPred F w.inv now m cfd w.cache).map fun r => { w with cache := r.2 }
  | .invalidate id => some { w with inv := fun j => if j = id then true else w.inv j }

/-- A history, newest first. -/
def run (F : Nat → Fact) : List (Nat × Op) → Option World
  | [] => some start
  | (now, op) :: h => (run F h).bind fun w => step F w now op

end Verif.EvidenceCache
