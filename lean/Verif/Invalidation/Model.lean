/-!
# Invalidation of objects

Transcription of `is_invalidated` and `invalidate` of `Object` (`/repo/r_exec/object.tpl.cpp:100-125`),
`_Fact` (`/repo/r_exec/factory.cpp:223-233`), `Pred` (576-610), `Goal` (669-686), `Sim` (749-769) and
`ICST` (915-928).

Objects are addresses; the graph of the references these functions follow is fixed, the
`invalidated_` flags change.  Both functions are virtual and call each other through the graph; the
recursion is given fuel, and runs out of it only where the C++ recursion is deeper than the fuel
(the theorems give enough of it for any graph without cycles).

Simplifications: the other effects of `Object::invalidate` (clearing the views, removing markers,
`delete_object`, see `Verif.Store`) are left out.
-/
namespace Verif.Invalidation

/-- What an object is and what it refers to. -/
inductive Node
  /-- any other class: `Object::is_invalidated` only looks at the flag -/
  | plain
  /-- `get_reference(0)` -/
  | fact (content : Nat)
  /-- simulations (in the order `get_simulation(0..)` yields them), `grounds_`,
  `defeasible_validities_`, target -/
  | pred (sims grounds validities : List Nat) (target : Nat)
  /-- the simulation of a goal, if it has one, and that simulation's `get_f_super_goal()` -/
  | goal (sim : Option (Nat × Nat))
  /-- `get_f_super_goal()` -/
  | sim (superGoal : Nat)
  /-- `components_` -/
  | icst (components : List Nat)
deriving DecidableEq, Repr

/-- `invalidated_` of every object. -/
abbrev Flags := Nat → Bool

/-- `invalidated_ = 1`. -/
def mark (s : Flags) (n : Nat) : Flags := fun m => if m = n then true else s m

/-- A loop that calls `is_invalidated` on each element until one is invalid. -/
def anyOf (q : Flags → Nat → Bool × Flags) (s : Flags) : List Nat → Bool × Flags
  | [] => (false, s)
  | n :: l => match q s n with
    | (true, s') => (true, s')
    | (false, s') => anyOf q s' l

/-- `Sim::invalidate` (factory.cpp:749-757). -/
def simInvalidate (q : Flags → Nat → Bool × Flags) (s : Flags) (n superGoal : Nat) : Bool × Flags :=
  if s n then (true, s)
  else match q s superGoal with
    | (true, s') => (true, s')
    | (false, s') => (false, mark s' n)

/-- `Goal::invalidate` (factory.cpp:669-674). -/
def goalInvalidate (q : Flags → Nat → Bool × Flags) (s : Flags) (n : Nat) (sim : Option (Nat × Nat)) :
    Bool × Flags :=
  match sim with
  | none => (s n, mark s n)
  | some (m, f) => ((simInvalidate q s m f).2 n, mark (simInvalidate q s m f).2 n)

/-- `is_invalidated`, all classes. -/
def query (g : Nat → Node) : Nat → Flags → Nat → Bool × Flags
  | 0, s, n => (s n, s)
  | k + 1, s, n =>
    if s n then (true, s)
    else match g n with
      | .plain => (false, s)
      | .fact c => match query g k s c with
        | (true, s') => (true, mark s' n)
        | (false, s') => (false, s')
      | .pred sims grounds validities target =>
        match anyOf (query g k) s (sims ++ grounds ++ validities ++ [target]) with
        | (true, s') => (true, mark s' n)
        | (false, s') => (false, s')
      | .goal none => (false, s)
      | .goal (some (m, f)) => match query g k s f with
        | (true, s') => (true, (goalInvalidate (query g k) s' n (some (m, f))).2)
        | (false, s') => (false, s')
      | .sim f => match query g k s f with
        | (true, s') => (true, (simInvalidate (query g k) s' n f).2)
        | (false, s') => (false, s')
      | .icst comps => match anyOf (query g k) s comps with
        | (true, s') => (true, mark s' n)
        | (false, s') => (false, s')

/-- `invalidate`, all classes; the result tells whether the object was invalid already. -/
def invalidate (g : Nat → Node) (k : Nat) (s : Flags) (n : Nat) : Bool × Flags :=
  match g n with
  | .goal sim => goalInvalidate (query g k) s n sim
  | .sim f => simInvalidate (query g k) s n f
  | _ => (s n, mark s n)

end Verif.Invalidation
