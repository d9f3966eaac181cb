/-!
# Making and finding composite states for an observation

`_TPX::make_f_icst`, `filter_icst_components`, the order of the patterns in `build_cst`,
`find_f_icst_component` and `_find_f_icst` (r_exec/pattern_extractor.cpp:207-402). Facts are identified by their
addresses. Left out: commands and instances of models, for which nothing is looked for (lines 287-289, 296-299,
313-316), and the code of the state and its instance (C77, C82). `none` is undefined behaviour: an access outside
an array.
-/
namespace Verif.Extract

/-- An instance of a composite state: `components_` (factory.h:679) and the references of its unpacked state, which
are its patterns in order (pattern_extractor.cpp:241-244). `used` is not in the program: it records which component
was taken for which pattern when the instance was made. -/
structure Inst where
  parts : List Nat
  pats : List Nat
  used : List (Nat × Nat)
  deriving DecidableEq

/-- A fact: when it holds, and what its object is if it is an instance of a composite state. -/
structure Fct where
  after : Int
  before : Int
  inst : Option Inst
  deriving DecidableEq

/-- The facts there are. -/
abbrev World := Nat → Fct

/-- `Input` (pattern_extractor.h:100-121). -/
structure Inp where
  fact : Nat
  eligible : Bool
  deriving DecidableEq

/-- `_TPX::Component` (pattern_extractor.h:181-187). -/
structure Comp where
  object : Nat
  discarded : Bool
  deriving DecidableEq

/-- `_Fact::match_timings_sync` (factory.cpp:235-242). -/
def sync (tol : Int) (c e : Fct) : Bool := !(decide (e.after > c.after + tol) || decide (e.before ≤ c.after))

/-- pattern_extractor.cpp:321-334: the components, and the positions of those that are instances (the one looked
for is not looked at). -/
def gather (W : World) (tol : Int) (c : Nat) : List Inp → List Comp → List Nat → List Comp × List Nat
  | [], l, ks => (l, ks)
  | i :: is, l, ks =>
    if c = i.fact then gather W tol c is (l ++ [⟨c, false⟩]) ks
    else if sync tol (W c) (W i.fact) then
      gather W tol c is (l ++ [⟨i.fact, false⟩]) (if (W i.fact).inst.isSome then ks ++ [l.length] else ks)
    else gather W tol c is l ks

/-- pattern_extractor.cpp:211-223: the entries written to `found`. -/
def found (parts : List Nat) (l : List Comp) : List Nat :=
  (List.range l.length).flatMap fun j =>
    match l[j]? with
    | some x => if x.discarded then [] else List.replicate (parts.count x.object) j
    | none => []

/-- `components[j].discarded = true`. -/
def mark (l : List Comp) (j : Nat) : List Comp := l.modify j fun x => { x with discarded := true }

/-- `filter_icst_components(icst, icst_index, components)` (pattern_extractor.cpp:207-233); `found` has room for as
many entries as there are parts. -/
def filterParts (parts : List Nat) (index : Nat) (l : List Comp) : Option (List Comp) :=
  let f := found parts l
  if f.length > parts.length then none
  else if f.length > 0 then some (f.foldl mark l)
  else if index < l.length then some (mark l index)
  else none

/-- The parts of an instance; a fact about something else has none. -/
def partsOf (W : World) (x : Nat) : List Nat := ((W x).inst.map Inst.parts).getD []

/-- pattern_extractor.cpp:336-340: the number passed as the position of the instance is `j`, the number of the
round. -/
def filterAll (W : World) : Nat → List Nat → List Comp → Option (List Comp)
  | _, [], l => some l
  | j, k :: ks, l =>
    match l[k]? with
    | none => none
    | some x => (filterParts (partsOf W x.object) j l).bind (filterAll W (j + 1) ks)

/-- pattern_extractor.cpp:355-363: the inputs looked at are not tried again. -/
def flag (l : List Comp) (is : List Inp) : List Inp :=
  is.map fun i => if l.any (fun x => x.object == i.fact) then { i with eligible := false } else i

/-- pattern_extractor.cpp:380-402: the components whose patterns the new state references, in order. -/
def order (c : Nat) (l : List Comp) : List Nat :=
  (if l.any (fun x => !x.discarded && x.object == c) then [c] else []) ++
    (l.filter fun x => !x.discarded && x.object != c).map Comp.object

/-- What `make_f_icst` leaves: the components of the new state, the inputs, and the instance made
(pattern_extractor.cpp:365-373). `build_f_ihlp` (binding_map.cpp:1128-1164) does not fill in `components_`. -/
structure Made where
  objs : List Nat
  inputs : List Inp
  inst : Inst
  deriving DecidableEq

/-- `make_f_icst` (pattern_extractor.cpp:311-374) for component `c`: undefined behaviour, nothing, or a new state.
The patterns of the state are numbered as its components. -/
def makeState (W : World) (tol : Int) (c : Nat) (is : List Inp) : Option (Option Made) :=
  let g := gather W tol c is [] []
  (filterAll W 0 g.2 g.1).map fun l =>
    if (l.filter fun x => !x.discarded).length ≤ 1 then none
    else some ⟨order c l, flag l is, ⟨[], order c l, (order c l).map fun x => (x, x)⟩⟩

/-! ## Looking for an instance -/

/-- The loop of pattern_extractor.cpp:249-254. -/
def firstFound (f : Nat → Option (Option Nat)) : List Nat → Option (Option Nat)
  | [] => some none
  | x :: xs => (f x).bind fun r => match r with | some p => some (some p) | none => firstFound f xs

/-- `find_f_icst_component(fact, component, max_depth)` (pattern_extractor.cpp:235-259): the pattern found, or
nothing. -/
def findPart (W : World) : (depth : Nat) → (fact c : Nat) → Option (Option Nat)
  | 0, f, c =>
    match (W f).inst with
    | none => some none
    | some s =>
      match s.parts.findIdx? (· == c) with
      | some k => (s.pats[k]?).map some
      | none => some none
  | d + 1, f, c =>
    match (W f).inst with
    | none => some none
    | some s =>
      match s.parts.findIdx? (· == c) with
      | some k => (s.pats[k]?).map some
      | none => firstFound (fun x => findPart W d x c) s.parts

/-- The loops of `_find_f_icst` (pattern_extractor.cpp:261-283), over the inputs and then the instances made
before: the facts found with the patterns, all of them or the first. -/
def findAll (W : World) (c : Nat) (multiple : Bool) : List Nat → Option (List (Nat × Nat))
  | [] => some []
  | f :: fs =>
    (findPart W 3 f c).bind fun r =>
      match r with
      | some p => if multiple then (findAll W c multiple fs).map ((f, p) :: ·) else some [(f, p)]
      | none => findAll W c multiple fs

end Verif.Extract
