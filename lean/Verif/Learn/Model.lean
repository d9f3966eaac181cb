import Verif.Extract.Model
import Verif.ModelBase.Model
/-!
# Learning models

Transcription of `CTPX::reduce`, `GTPX::reduce`, `PTPX::reduce`, their `build_mdl`, `build_requirement`,
`find_f_icst` and `inject_hlps` (`/repo/r_exec/pattern_extractor.cpp:285-309, 496-535, 625-780, 806-975, 1028-1155,
1338-1440`).

Facts are numbers, as in `Verif.Extract`, which has the search for states and their making; the model base is that of
`Verif.ModelBase`. What is asked about the values of facts (whether they have values in common, whether there is a law
for them) and the signatures of the models built are parameters; guards are in `Verif.Guards`. One instant is used for
all entries in the model base. Other threads do not touch the model base meanwhile. `none` as the result of a function is
undefined behaviour.
-/
namespace Verif.Learn
open Verif.Extract (World Inp Inst Fct)
open Verif.ModelBase (Base)

/-- What is read of a fact besides its times: whether it is of a command or of an instance of a model, which are no
parts of states (pattern_extractor.cpp:287-289). -/
structure Env where
  tol : Int
  now : Int
  isCmd : Nat → Bool
  isImdl : Nat → Bool

/-- The signatures under which models are looked for in the model base: of a model, of the requirement for a model, of
that requirement once it refers to the model found; and whether each variable of the right-hand side gets a value
(pattern_extractor.cpp:1403-1424). They depend on the cause and the left-hand sides. -/
structure Sigs where
  one : Nat → Nat → Nat
  req : Nat → Nat → Nat → Nat
  req' : Nat → Nat → Nat → Nat
  closed : Nat → Nat → Nat → Bool

/-- What is sent to the primary group: a state, of which instance and which facts it is made; a model, with its
signature. -/
inductive Sent
  | state (inst : Nat) (objs : List Nat)
  | mdl (id sig : Nat)
deriving DecidableEq, Repr

/-- An attempt: the cause, the left-hand side of the model, that of the requirement, the facts of which a state was made
for it, what was sent. -/
structure Try where
  cause : Nat
  lhs : Nat
  prem : Option Nat := none
  new : List Nat := []
  sent : List Sent
deriving DecidableEq, Repr

/-- An extractor at work: the facts there are, `inputs_`, `f_icsts_`, the next unused number, the model base. -/
structure St where
  W : World
  inputs : List Inp
  made : List Nat := []
  next : Nat
  base : Base

/-- `find_f_icst` without making states (pattern_extractor.cpp:285-292). -/
def find (E : Env) (c : Nat) (multiple : Bool) (st : St) : Option (List Nat) :=
  if E.isCmd c || E.isImdl c then some []
  else (Extract.findAll st.W c multiple (st.inputs.map Inp.fact ++ st.made)).map (·.map Prod.fst)

/-- `make_f_icst` (pattern_extractor.cpp:311-374): the instance made, which has no `components_`, and the facts that its
state is made of. Its times are not looked at. -/
def make (E : Env) (c : Nat) (st : St) : Option (Option (Nat × List Nat) × St) :=
  if E.isCmd c || E.isImdl c then some (none, st)
  else (Extract.makeState st.W E.tol c st.inputs).map fun m =>
    match m with
    | none => (none, st)
    | some m =>
      (some (st.next, m.objs),
        { st with W := fun f => if f = st.next then ⟨(st.W c).after, (st.W c).before, some m.inst⟩ else st.W f
                  inputs := m.inputs, made := st.made ++ [st.next], next := st.next + 1 })

/-- What `find_f_icst` gives: instances, and the state that was made, if any. -/
abbrev Found := List Nat × Option (Nat × List Nat)

/-- `find_f_icst` (pattern_extractor.cpp:294-309). -/
def findOrMake (E : Env) (c : Nat) (multiple : Bool) (st : St) : Option (Found × St) :=
  (find E c multiple st).bind fun r =>
    if r ≠ [] then some ((r, none), st)
    else (make E c st).map fun (m, st') =>
      match m with
      | none => (([], none), st')
      | some (f, objs) => (([f], some (f, objs)), st')

/-- The states that `inject_hlps` sends before the models (pattern_extractor.cpp:496-503). -/
def states (new : Option (Nat × List Nat)) : List Sent := (new.map fun (f, o) => Sent.state f o).toList

/-- The facts of a state. -/
def objs (new : Option (Nat × List Nat)) : List Nat := (new.map Prod.snd).getD []

/-- `build_mdl` and `inject_hlps` for a single model (pattern_extractor.cpp:735-775, 940-975). -/
def single (E : Env) (S : Sigs) (cause lhs : Nat) (new : Option (Nat × List Nat)) (st : St) : Try × St :=
  let m := st.next
  let st' := { st with next := st.next + 1 }
  match ModelBase.check st.base m (S.one cause lhs) E.now with
  | (some x, b) =>
    (⟨cause, lhs, none, objs new, if x = m then states new ++ [.mdl m (S.one cause lhs)] else []⟩, { st' with base := b })
  | (none, b) => (⟨cause, lhs, none, objs new, []⟩, { st' with base := b })

/-- `_TPX::build_requirement` and `inject_hlps` (pattern_extractor.cpp:1382-1440). -/
def pair (E : Env) (S : Sigs) (cause lhs prem : Nat) (new : Option (Nat × List Nat)) (st : St) : Try × St :=
  let m0 := st.next
  let m1 := st.next + 1
  let st' := { st with next := st.next + 2 }
  if !S.closed cause lhs prem then (⟨cause, lhs, some prem, objs new, []⟩, st')
  else
    match ModelBase.checkPair st.base m0 (S.one cause lhs) m1 (S.req cause lhs prem) (S.req' cause lhs prem) E.now with
    | ((_, none), b) => (⟨cause, lhs, some prem, objs new, []⟩, { st' with base := b })
    | ((x0, some x1), b) =>
      if x1 = m1 then
        match x0 with
        | none => (⟨cause, lhs, some prem, objs new, []⟩, { st' with base := b })
        | some x0 =>
          (⟨cause, lhs, some prem, objs new, states new ++ (if x0 = m0 then [.mdl m0 (S.one cause lhs)] else []) ++
            [.mdl m1 (if x0 = m0 then S.req cause lhs prem else S.req' cause lhs prem)]⟩, { st' with base := b })
      else (⟨cause, lhs, some prem, objs new, []⟩, { st' with base := b })

/-- A loop over `inputs_`, which may flag inputs but keeps their number and order. -/
def each (f : St → Inp → Option (List Try × St)) : (n k : Nat) → St → Option (List Try × St)
  | 0, _, st => some ([], st)
  | n + 1, k, st =>
    match st.inputs[k]? with
    | none => some ([], st)
    | some i =>
      match f st i with
      | none => none
      | some (ts, st') =>
        match each f n (k + 1) st' with
        | none => none
        | some (us, st'') => some (ts ++ us, st'')

/-! ## Changes -/

/-- An observation `target` has changed; the new one starts at `after`. `shares`: a fact has a value in common with one
of them; `delta`: it is an instance of a model which has the difference among its values; `needGuard`: the values are
numbers, or structures with operators; `law`: `find_guard_builder` finds a guard. -/
structure Change where
  target : Nat
  after : Int
  shares : Nat → Bool
  delta : Nat → Bool
  needGuard : Bool
  law : Nat → Bool

/-- The first loop of `CTPX::reduce` (pattern_extractor.cpp:1064-1103). -/
def Change.keep (E : Env) (C : Change) (W : World) (i : Inp) : Bool :=
  match (W i.fact).inst with
  | some s => s.parts.all C.shares && !decide ((W i.fact).after ≥ C.after)
  | none => !decide ((W i.fact).after ≥ C.after) && (C.shares i.fact || (E.isImdl i.fact && C.delta i.fact))

/-- `Utils::Synchronous` (r_code/code_utils.cpp:124-127). -/
def synchronous (tol a b : Int) : Bool := decide ((a - b).natAbs < tol)

/-- The tests of the second loop (pattern_extractor.cpp:1119-1146). -/
def Change.cause (E : Env) (C : Change) (W : World) (i : Inp) : Bool :=
  C.target != i.fact && (W i.fact).inst.isNone && i.eligible &&
    !synchronous E.tol (W i.fact).after (W C.target).after &&
    (if C.needGuard && (!E.isImdl i.fact || !C.shares i.fact) then C.law i.fact else true)

/-- `build_requirement` for the premise (pattern_extractor.cpp:1376-1385). -/
def Change.requirement (E : Env) (S : Sigs) (C : Change) (cause lhs : Nat) (st : St) : Option (List Try × St) :=
  (findOrMake E C.target false st).map fun (r, st') =>
    match r with
    | ([], _) => ([⟨cause, lhs, none, [], []⟩], st')
    | (p :: _, new) => let x := pair E S cause lhs p new st'; ([x.1], x.2)

/-- One round of the second loop (pattern_extractor.cpp:1117-1154). -/
def Change.round (E : Env) (S : Sigs) (C : Change) (st : St) (i : Inp) : Option (List Try × St) :=
  if !C.cause E st.W i then some ([], st)
  else (find E i.fact false st).bind fun r => C.requirement E S i.fact (r.headD i.fact) st

/-- `CTPX::reduce` (pattern_extractor.cpp:1028-1155), with the premise among the inputs. -/
def Change.reduce (E : Env) (S : Sigs) (C : Change) (st : St) : Option (List Try × St) :=
  let st := { st with inputs := st.inputs.filter (C.keep E st.W) }
  each (C.round E S) st.inputs.length 0 st

/-! ## Successes of goals -/

/-- A goal, made at `since`, has succeeded: the evidence starts at `after`; `anti`: it is an |fact; `aim` is the target of
the goal; `predicted`: one of `predictions_` matches the evidence. -/
structure Success where
  since : Int
  after : Int
  aim : Nat
  anti : Bool := false
  predicted : Bool := false

/-- `build_mdl` for a cause that is in no state (pattern_extractor.cpp:716-760): for an |fact, `f_icst` is NULL and read
if an instance is found (the one found is assigned to a local variable of the same name, 730). -/
def Success.plain (E : Env) (S : Sigs) (C : Success) (cause : Nat) (st : St) : Option (List Try × St) :=
  if C.anti then
    match findOrMake E C.aim false st with
    | none => none
    | some ((_ :: _, _), _) => none
    | some (([], _), st') => some ([⟨cause, cause, none, [], []⟩], st')
  else let x := single E S cause cause none st; some ([x.1], x.2)

/-- The tests of `GTPX::reduce` on an input that is not erased (pattern_extractor.cpp:669-691). -/
def Success.cause (E : Env) (C : Success) (W : World) (i : Inp) : Bool :=
  (W i.fact).inst.isNone && i.eligible && !synchronous E.tol (W i.fact).after C.since

/-- One round of the loop for an input that is not erased (pattern_extractor.cpp:669-712). -/
def Success.round (E : Env) (S : Sigs) (C : Success) (st : St) (i : Inp) : Option (List Try × St) :=
  if !C.cause E st.W i then some ([], st)
  else
    match findOrMake E i.fact false st with
    | none => none
    | some (([], _), st') => C.plain E S i.fact st'
    | some ((f :: _, new), st') => let x := single E S i.fact f new st'; some ([x.1], x.2)

/-- The loop of `GTPX::reduce` (pattern_extractor.cpp:660-713), which erases inputs on its way. -/
def Success.loop (E : Env) (S : Sigs) (C : Success) : (n k : Nat) → St → Option (List Try × St)
  | 0, _, st => some ([], st)
  | n + 1, k, st =>
    match st.inputs[k]? with
    | none => some ([], st)
    | some i =>
      if (st.W i.fact).after ≥ C.after then C.loop E S n k { st with inputs := st.inputs.eraseIdx k }
      else
        match C.round E S st i with
        | none => none
        | some (ts, st') =>
          match C.loop E S n (k + 1) st' with
          | none => none
          | some (us, st'') => some (ts ++ us, st'')

/-- `GTPX::reduce` (pattern_extractor.cpp:625-713). -/
def Success.reduce (E : Env) (S : Sigs) (C : Success) (st : St) : Option (List Try × St) :=
  if C.predicted then some ([], st) else C.loop E S st.inputs.length 0 st

/-! ## Failures of predictions -/

/-- A prediction has failed; the model that made it was used from `after` on. `shares`: a fact has a value in common with
the instance of the model; `isVal`: it is of a value and no axiom; `like`: two values have attribute and value in common;
`holds`: an instance has a fact as a part, at any depth (`ICST::r_contains`). -/
structure Failure where
  after : Int
  shares : Nat → Bool
  isVal : Nat → Bool
  like : Nat → Nat → Bool
  holds : Nat → Nat → Bool

/-- The first loop of `PTPX::reduce` (pattern_extractor.cpp:836-866): the inputs that are kept. -/
def Failure.direct (E : Env) (C : Failure) (W : World) (i : Inp) : Bool :=
  !E.isCmd i.fact && !decide ((W i.fact).after > C.after) && C.shares i.fact

/-- Those that are put aside in the same loop (849-856): values, and instances of states. -/
def Failure.aside (E : Env) (C : Failure) (W : World) (i : Inp) : Bool :=
  !E.isCmd i.fact && !decide ((W i.fact).after > C.after) && !C.shares i.fact

/-- `PTPX::reduce` up to the search for causes (pattern_extractor.cpp:836-909). -/
def Failure.filter (E : Env) (C : Failure) (W : World) (is : List Inp) : List Inp :=
  let kept := is.filter (C.direct E W)
  let accepted := (kept.filter fun i => C.isVal i.fact).map Inp.fact
  let aside := is.filter (C.aside E W)
  let vals := (aside.filter fun i => C.isVal i.fact).filter fun i => accepted.any (C.like i.fact)
  let insts := (aside.filter fun i => !C.isVal i.fact && (W i.fact).inst.isSome).filter fun i =>
    vals.any fun v => C.holds i.fact v.fact
  kept ++ vals ++ insts

/-- The models for the instances found (pattern_extractor.cpp:944-948). -/
def several (E : Env) (S : Sigs) (cause : Nat) (new : Option (Nat × List Nat)) : List Nat → St → List Try × St
  | [], st => ([], st)
  | f :: fs, st =>
    let x := single E S cause f new st
    let y := several E S cause new fs x.2
    (x.1 :: y.1, y.2)

/-- One round of the last loop (pattern_extractor.cpp:911-961). -/
def Failure.round (E : Env) (S : Sigs) (st : St) (i : Inp) : Option (List Try × St) :=
  if !((st.W i.fact).inst.isNone && i.eligible) then some ([], st)
  else
    match findOrMake E i.fact true st with
    | none => none
    | some (([], _), st') => let x := single E S i.fact i.fact none st'; some ([x.1], x.2)
    | some ((f :: fs, new), st') =>
      let x := several E S i.fact new (f :: fs) st'
      if new.isSome then some x
      else
        match make E i.fact x.2 with
        | none => none
        | some (none, st'') => some (x.1, st'')
        | some (some (g, objs), st'') =>
          let y := single E S i.fact g (some (g, objs)) st''
          some (x.1 ++ [y.1], y.2)

/-- `PTPX::reduce` (pattern_extractor.cpp:806-962), with the cross buffer as the inputs. -/
def Failure.reduce (E : Env) (S : Sigs) (C : Failure) (st : St) : Option (List Try × St) :=
  let st := { st with inputs := C.filter E st.W st.inputs }
  each (Failure.round E S) st.inputs.length 0 st

end Verif.Learn
