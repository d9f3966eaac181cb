import Mathlib.Algebra.Order.Ring.Rat
/-!
# Saliency propagation

Transcription of r_exec/group.cpp:774-833. Objects are numbers; the result is the list of objects
for which a `SaliencyPropagationJob` is pushed, in order. The recursion of the code is kept and
given fuel (`none`: fuel exhausted).
-/
namespace Verif.Propagation

/-- What the functions read of the objects. -/
structure Graph where
  isMarker : Nat → Bool
  refs : Nat → List Nat
  markers : Nat → List Nat
  /-- `get_psln_thr()` -/
  thr : Nat → Rat
  /-- `_Mem::Get()->get_root()` -/
  root : Nat

/-- Path (by reference in the code) and jobs pushed so far. -/
structure St where
  path : List Nat
  jobs : List Nat
  deriving DecidableEq

/-- The objects visited from `o`: references if it is a marker, then its markers. -/
def Graph.next (g : Graph) (o : Nat) : List Nat :=
  (if g.isMarker o then g.refs o else []) ++ g.markers o

mutual
/-- `_initiate_sln_propagation(object, change, source_sln_thr, path)` (group.cpp:795-817). -/
def initiate (g : Graph) (change : Rat) (fuel : Nat) (o : Nat) (s : St) : Option St :=
  match fuel with
  | 0 => none
  | fuel + 1 =>
    if |change| > g.thr o then
      if o ∈ s.path then some s
      else (g.next o).foldlM (fun s x => propagate g change fuel x s) { s with path := s.path ++ [o] }
    else some s
termination_by structural fuel
/-- `_propagate_sln` (group.cpp:818-833). -/
def propagate (g : Graph) (change : Rat) (fuel : Nat) (o : Nat) (s : St) : Option St :=
  match fuel with
  | 0 => none
  | fuel + 1 =>
    if o = g.root then some s
    else if o ∈ s.path then some s
    else initiate g change fuel o { path := s.path ++ [o], jobs := s.jobs ++ [o] }
termination_by structural fuel
end

/-- `_initiate_sln_propagation(object, change, source_sln_thr)` (group.cpp:774-793). -/
def start (g : Graph) (change : Rat) (fuel : Nat) (o : Nat) : Option (List Nat) :=
  if |change| > g.thr o then
    ((g.next o).foldlM (fun s x => propagate g change fuel x s) { path := [o], jobs := [] }).map St.jobs
  else some []

end Verif.Propagation
