import Verif.Match.Props
/-!
# Simulations: the list in a prediction, and the goal targets of a simulation root

Transcription of `Pred::construct` and the copying constructor (`/repo/r_exec/factory.cpp:550-574`),
`Pred::get_simulations_size`, `get_simulation` (`/repo/r_exec/factory.h:458-472`, factory.cpp:626-635),
`has_simulation` (638-646); `Sim::get_root_sim` (771-783) and `Sim::register_goal_target` (785-804).

Objects are addresses; `none` stands for undefined behaviour (reading outside code or references).
-/
namespace Verif.Sims
open Verif.Atom Verif.Words

/-! ## The simulations of a prediction -/

/-- A prediction: code and references. -/
structure Pred where
  code : List Word
  refs : List Nat
deriving DecidableEq, Repr

/-- `Pred::construct` (factory.cpp:558-574); `PRED_ARITY` is 3, `PRED_TARGET` 1, `PRED_SIMS` 2.  The
argument of `Atom::Set` is a `uint8`. -/
def construct (opcode : BitVec 16) (psln : BitVec 32) (target : Nat) (sims : List Nat) : Pred :=
  { code := [object opcode 3, rPointer 0, iPointer 4, float psln, set (BitVec.ofNat 8 sims.length)] ++
      (List.range sims.length).map fun i => rPointer (BitVec.ofNat 16 (1 + i))
    refs := target :: sims }

/-- `get_simulations_size` (factory.h:458-461). -/
def simsSize (p : Pred) : Option Nat :=
  match p.code[2]? with
  | none => none
  | some a => match p.code[(asIndex a).toNat]? with
    | none => none
    | some s => some (getAtomCount s).toNat

/-- `get_simulation(uint16 i)` (factory.h:468-472). -/
def getSim (p : Pred) (i : Nat) : Option Nat :=
  match p.code[2]? with
  | none => none
  | some a => match p.code[(asIndex a).toNat + i]? with
    | none => none
    | some w => p.refs[(asIndex w).toNat]?

/-- The simulations a loop `for i < get_simulations_size()` meets, from `i` on, `n` of them. -/
def simsFrom (p : Pred) (i : Nat) : Nat → Option (List Nat)
  | 0 => some []
  | n + 1 => match getSim p i with
    | none => none
    | some s => match simsFrom p (i + 1) n with
      | none => none
      | some l => some (s :: l)

/-- What the loops of `is_invalidated`, `get_simulation(root)`, `has_simulation` and the copying
constructor run over. -/
def simsOf (p : Pred) : Option (List Nat) :=
  match simsSize p with
  | none => none
  | some n => simsFrom p 0 n

/-- `Pred(target, simulations_source, psln_thr)` (factory.cpp:550-556). -/
def copy (opcode : BitVec 16) (psln : BitVec 32) (target : Nat) (source : Pred) : Option Pred :=
  match simsOf source with
  | none => none
  | some l => some (construct opcode psln target l)

/-- `has_simulation` (factory.cpp:638-646). -/
def hasSim (p : Pred) (s : Nat) : Option Bool :=
  match simsOf p with
  | none => none
  | some l => some (l.any fun x => x == s)

/-- `get_simulation(Controller *root)` (factory.cpp:626-636); `rootOf` is `Sim::root_`. -/
def simWithRoot (rootOf : Nat → Nat) (p : Pred) (root : Nat) : Option (Option Nat) :=
  match simsOf p with
  | none => none
  | some l => some (l.find? fun x => rootOf x == root)

/-! ## Goal targets -/

/-- A simulation: whether its mode is `SIM_ROOT`, and the simulation of its super-goal, if any. -/
structure SimObj where
  isRoot : Bool
  superSim : Option Nat
deriving DecidableEq, Repr

/-- `Sim::get_root_sim` (factory.cpp:771-783): outer `none`, still running after `fuel` steps or a
dangling address; inner `none`, NULL. -/
def getRootSim (sims : Nat → Option SimObj) : Nat → Nat → Option (Option Nat)
  | 0, _ => none
  | k + 1, n => match sims n with
    | none => none
    | some o =>
      if o.isRoot then some (some n)
      else match o.superSim with
        | none => some none
        | some m => getRootSim sims k m

/-- `goalTargets_` of every root simulation. -/
abbrev Targets := Nat → List Nat

/-- The condition in the loop (factory.cpp:799): same opcode and `_Fact::MatchObject(…, true)`. -/
def alike (h : Match.Heap) (oc : Match.Opc) (t : Match.Tol) (fuel : Nat) (f g : Nat) : Option Bool :=
  match Match.word h f 0, Match.word h g 0, Match.ref h f 0, Match.ref h g 0 with
  | some wf, some wg, some a, some b =>
    if asOpcode wf = asOpcode wg then Match.matchObject h oc t true fuel a b else some false
  | _, _, _, _ => none

/-- The loop (factory.cpp:796-802): is there a registered target like `f`? -/
def scan (test : Nat → Nat → Option Bool) (f : Nat) : List Nat → Option Bool
  | [] => some false
  | g :: l => match test f g with
    | none => none
    | some true => some true
    | some false => scan test f l

/-- `goalTargets_.push_back(f)`. -/
def push (st : Targets) (r f : Nat) : Targets := fun x => if x = r then st x ++ [f] else st x

/-- `Sim::register_goal_target` (factory.cpp:785-804), uninterrupted. -/
def register (test : Nat → Nat → Option Bool) (rootOf : Nat → Option (Option Nat)) (st : Targets)
    (sim f : Nat) : Option (Bool × Targets) :=
  match rootOf sim with
  | none => none
  | some none => some (true, st)
  | some (some r) => match scan test f (st r) with
    | none => none
    | some true => some (false, st)
    | some false => some (true, push st r f)

/-- A history of uninterrupted calls, with the answers. -/
def runCalls (test : Nat → Nat → Option Bool) (rootOf : Nat → Option (Option Nat)) (st : Targets) :
    List (Nat × Nat) → Option (List Bool × Targets)
  | [] => some ([], st)
  | (sim, f) :: l => match register test rootOf st sim f with
    | none => none
    | some (b, st') => match runCalls test rootOf st' l with
      | none => none
      | some (bs, st'') => some (b :: bs, st'')

/-! ### Two reduction cores

There is no lock ("Do we need a critical section for this?", factory.cpp:794), and several cores run
reduction jobs at the same time: between the loop and `push_back` of one call another call can run. -/

/-- A step: thread `th` runs the loop for a call on root `r` with target `f`, or finishes the call
whose loop found nothing. -/
inductive Step
  | look (th r f : Nat)
  | store (th : Nat)
deriving DecidableEq, Repr

/-- The lists, the calls between loop and `push_back`, the accepted targets. -/
structure Par where
  targets : Targets
  pending : List (Nat × Nat × Nat)
  accepted : List (Nat × Nat)

def parStep (test : Nat → Nat → Option Bool) (s : Par) : Step → Option Par
  | .look th r f =>
    if s.pending.any (fun p => p.1 == th) then none
    else match scan test f (s.targets r) with
      | none => none
      | some true => some s
      | some false => some ⟨s.targets, (th, r, f) :: s.pending, s.accepted⟩
  | .store th =>
    match s.pending.find? (fun p => p.1 == th) with
    | none => none
    | some (_, r, f) =>
      some ⟨push s.targets r f, s.pending.filter (fun p => p.1 != th), s.accepted ++ [(r, f)]⟩

def parRun (test : Nat → Nat → Option Bool) (s : Par) : List Step → Option Par
  | [] => some s
  | e :: l => match parStep test s e with
    | none => none
    | some s' => parRun test s' l

end Verif.Sims
