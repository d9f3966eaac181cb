import Mathlib.Data.List.Basic
/-!
# The productions of a program

Transcription of `InputLessPGMOverlay::inject_productions` (`/repo/r_exec/pgm_overlay.cpp:210-514`) and of
`get_mk_rdx` for programs without and with inputs (`:516-534, 798-820`).

A command is described by what the evaluation of its parts gives. Objects, views, groups, nodes and words
are numbers. Simplifications: indices do not wrap at 65536 and counts not at 256 (`Atom::Set` takes a
`uint8`, `/repo/r_code/atom.inline.cpp:215`); the code of the mk.rdx is a function from indices to words, as
it grows on demand; the copy of a command (`IPGMContext::copy`, `/repo/r_exec/context.h:131-301, 471-474`)
writes consecutive words from the index it is given on, appends references, and moves the extent index
behind what it wrote; the existence check hands back some object; time is exact. The TODO functions
(new_class, del_class, ldc, swap, pgm_overlay.cpp:414-420) are one command.
-/
namespace Verif.Prods

/-- A word of a mk.rdx. -/
inductive Cell
  /-- an atom nobody wrote -/
  | blank
  | marker
  | set (n : Nat)
  | iptr (i : Nat)
  | rptr (i : Nat)
  | word (w : Nat)
deriving DecidableEq

/-- A fact about a command: which object it is about, from when to when, whether it is an anti-fact. -/
structure Fact where
  about : Nat
  after : Int
  before : Int
  anti : Bool
deriving DecidableEq

/-- What a mk.rdx refers to. -/
inductive Ref
  | obj (o : Nat)
  | fact (f : Fact)
deriving DecidableEq

/-- The first argument of inj and eje: a reference to an object, or a structure of which an object is
built; `at_` is the index of the argument in the code it was read from. -/
inductive Arg
  | ref (o : Nat)
  | build (o : Nat) (at_ : Nat)
deriving DecidableEq

/-- What `getMember` found (`/repo/r_exec/context.cpp:417-477`). -/
inductive Target
  | null
  | view (g oid : Nat)
  | object (o : Nat)
  | group (g : Nat)
  | undefined
deriving DecidableEq

/-- A command. The view of an injection is `none` if it is the empty set. -/
inductive Cmd
  | inject (a : Arg) (view : Option Nat)
  | eject (a : Arg) (view node : Nat)
  | mod (t : Target) (member : Nat) (v : Int)
  | set (t : Target) (member : Nat) (v : Int)
  | prb (heard : Bool) (msg : Nat)
  | stop
  | todo
  /-- an icmd with a function the executive does not have -/
  | unknown
  /-- a cmd; what the device hands back: the command it carries out, if any -/
  | device (c : Nat) (done : Option Nat)
  /-- neither icmd nor cmd -/
  | other
deriving DecidableEq

/-- A production: the command, whether it evaluates, and its copy at an index given the references there
are: the words, and the references added. -/
structure Prod where
  cmd : Cmd
  ok : Bool
  copy : Nat → List Ref → List Cell × List Ref

/-- The overlay. -/
structure Pgm where
  /-- the instantiated program and the program -/
  ipgm : Nat
  pgm : Nat
  host : Nat
  stdin : Nat
  /-- `input_views_` -/
  inputs : List Nat
  ntf : List Nat
  nfr : Bool
  /-- the productions come from red; it evaluates -/
  red : Option Bool
  prods : List Prod
  codeSize : Nat

/-- Time: now, the time reference, the sampling period, the tolerance. -/
structure Clock where
  now : Int
  ref : Int
  period : Int
  tol : Int

/-- The marker built for the notification. -/
structure Mk where
  code : Nat → Cell
  refs : List Ref

/-- What happens. -/
inductive Ev
  | inject (o view origin : Nat)
  | eject (o view node : Nat)
  /-- an operation the group carries out at its next update -/
  | pend (isSet : Bool) (g oid member : Nat) (v : Int)
  | change (isSet : Bool) (o member : Nat) (v : Int)
  | changeGroup (isSet : Bool) (g member : Nat) (v : Int)
  | probe (msg : Nat)
  | stop
  | device (c : Nat)
  /-- a fact is injected in stdin, with the origin, for one period -/
  | fact (f : Fact) (grp origin : Nat)
  | notify (mk : Mk) (origin grp : Nat)

/-- The outcome of the whole; `ub` is a write outside the code. -/
inductive Res
  | ub
  | ret (ok : Bool) (evs : List Ev)

/-! ## First pass: evaluation -/

/-- The state of the first pass: `productions_`, `cmd_count`. -/
structure S1 where
  prods : List Nat
  count : Nat

inductive R1
  | ub
  | fail
  | ok (s : S1)

/-- The object added to `productions_` (pgm_overlay.cpp:260-269): the code is patched at the index of the
argument, which is an index into the values if the productions come from red. -/
def addArg (p : Pgm) (a : Arg) (s : S1) : R1 :=
  match a with
  | .ref o => .ok { prods := s.prods ++ [o], count := s.count + 1 }
  | .build o i => if i < p.codeSize then .ok { prods := s.prods ++ [o], count := s.count + 1 } else .ub

/-- One command of the first pass (pgm_overlay.cpp:230-285). -/
def pass1 (p : Pgm) (q : Prod) (s : S1) : R1 :=
  if p.red.isNone && !q.ok then .fail
  else match q.cmd with
    | .inject a _ => addArg p a s
    | .eject a _ _ => addArg p a s
    | .mod .. | .set .. | .prb .. => .ok s
    | .stop | .todo | .unknown => .ok { s with count := s.count + 1 }
    | .device .. => .ok { s with count := s.count + 2 }
    | .other => .ok { s with count := s.count + 1 }

def first (p : Pgm) : List Prod → S1 → R1
  | [], s => .ok s
  | q :: qs, s =>
    match pass1 p q s with
    | .ok s' => first p qs s'
    | r => r

/-! ## The marker -/

def poke (c : Nat → Cell) (i : Nat) (x : Cell) : Nat → Cell := fun j => if j = i then x else c j

/-- Consecutive words. -/
def pokes (c : Nat → Cell) (i : Nat) : List Cell → Nat → Cell
  | [] => c
  | x :: xs => pokes (poke c i x) (i + 1) xs

/-- `get_mk_rdx` (pgm_overlay.cpp:516-534, 798-820; no inputs for a program without inputs): the marker,
and the index at which its productions go. -/
def getMkRdx (p : Pgm) : Mk × Nat :=
  let c := pokes (fun _ => .blank) 0 [.marker, .rptr 0, .iptr 5, .iptr (6 + p.inputs.length), .word 1]
  let c := pokes c 5 (.set p.inputs.length :: (List.range p.inputs.length).map fun i => .rptr (i + 1))
  (⟨c, .obj p.ipgm :: p.inputs.map .obj⟩, 6 + p.inputs.length)

/-- The marker while it is filled: `write_index`, `extent_index`. -/
structure Draft where
  m : Mk
  w : Nat
  x : Nat

/-- pgm_overlay.cpp:295-301. -/
def start (p : Pgm) (count : Nat) : Draft × Nat :=
  let (mk, at_) := getMkRdx p
  (⟨{ mk with code := poke mk.code at_ (.set count) }, at_ + 1, at_ + 1 + count⟩, at_)

/-- pgm_overlay.cpp:334-335, 351-352, 489-490: a pointer to a copy of the command. -/
def addCmd (q : Prod) (d : Draft) : Draft :=
  let c := q.copy d.x d.m.refs
  { m := ⟨pokes (poke d.m.code d.w (.iptr d.x)) d.x c.1, d.m.refs ++ c.2⟩, w := d.w + 1, x := d.x + c.1.length }

/-- pgm_overlay.cpp:492-493. -/
def addFact (f : Fact) (d : Draft) : Draft :=
  { d with m := ⟨poke d.m.code d.w (.rptr d.m.refs.length), d.m.refs ++ [.fact f]⟩, w := d.w + 1 }

/-! ## Second pass: execution -/

/-- The state of the second pass; `k` is the number of injections and ejections so far. -/
structure S2 where
  evs : List Ev
  draft : Option Draft
  count : Nat
  k : Nat

/-- The object of an injection or ejection (pgm_overlay.cpp:317-319, 344): the argument has been
replaced by a pointer to the production, unless it stands in the value array; a structure there belongs
to the program. -/
def objOf (p : Pgm) (prods : List Nat) (a : Arg) (k : Nat) : Nat :=
  match a with
  | .ref o => o
  | .build o _ => if p.red.isSome then p.pgm else (prods[k]?).getD o

/-- The times of the fact of a command (pgm_overlay.cpp:461-464). -/
def frame (c : Clock) : Int := c.now - (c.now - c.ref).tmod c.period
def cmdFact (c : Clock) (o : Nat) (anti : Bool) : Fact :=
  ⟨o, max c.now (frame c + 2 * c.tol), frame c + c.period, anti⟩

/-- mod and set (pgm_overlay.cpp:353-413): `none` is a return of false. -/
def change (isSet : Bool) (t : Target) (m : Nat) (v : Int) : Option (List Ev) :=
  match t with
  | .null => some []
  | .view g oid => some [.pend isSet g oid m v]
  | .object o => some [.change isSet o m v]
  | .group g => some [.changeGroup isSet g m v]
  | .undefined => if isSet then some [] else none

/-- One command of the second pass (pgm_overlay.cpp:304-497); the events so far stand in `s` even if the
result is false. -/
def pass2 (p : Pgm) (c : Clock) (prods : List Nat) (q : Prod) (s : S2) : Bool × S2 :=
  match q.cmd with
  | .inject a view =>
    match view with
    | some v =>
      (true, { s with evs := s.evs ++ [.inject (objOf p prods a s.k) v p.host], draft := s.draft.map (addCmd q), k := s.k + 1 })
    | none => (true, { s with count := s.count - 1, k := s.k + 1 })
  | .eject a v n =>
    (true, { s with evs := s.evs ++ [.eject (objOf p prods a s.k) v n], draft := s.draft.map (addCmd q), k := s.k + 1 })
  | .mod t m v =>
    match change false t m v with
    | some e => (true, { s with evs := s.evs ++ e })
    | none => (false, s)
  | .set t m v =>
    match change true t m v with
    | some e => (true, { s with evs := s.evs ++ e })
    | none => (false, s)
  | .prb heard msg => (true, if heard then { s with evs := s.evs ++ [.probe msg] } else s)
  | .stop => (true, { s with evs := s.evs ++ [.stop] })
  | .todo => (true, s)
  | .unknown => (false, s)
  | .device d done =>
    match done with
    | some e =>
      (true, { s with evs := s.evs ++ [.device d, .fact (cmdFact c e false) p.stdin p.host]
                      draft := s.draft.map fun x => addFact (cmdFact c e false) (addCmd q x) })
    | none =>
      (true, { s with evs := s.evs ++ [.device d]
                      draft := s.draft.map fun x => addFact (cmdFact c d true) (addCmd q x) })
  | .other => (true, s)

def second (p : Pgm) (c : Clock) (prods : List Nat) : List Prod → S2 → Bool × S2
  | [], s => (true, s)
  | q :: qs, s =>
    match pass2 p c prods q s with
    | (true, s') => second p c prods qs s'
    | r => r

/-- pgm_overlay.cpp:499-508. -/
def notify (p : Pgm) (at_ : Nat) (s : S2) : List Ev :=
  match s.draft with
  | none => []
  | some d => p.ntf.map fun g => .notify { d.m with code := poke d.m.code at_ (.set s.count) } p.host g

/-- `inject_productions` (pgm_overlay.cpp:210-514). -/
def injectProductions (p : Pgm) (c : Clock) : Res :=
  if p.red = some false then .ret false []
  else
    match first p p.prods ⟨[], 0⟩ with
    | .ub => .ub
    | .fail => .ret false []
    | .ok s1 =>
      let d := start p s1.count
      let r := second p c s1.prods p.prods
        ⟨[], if p.ntf.length ≠ 0 && s1.count ≠ 0 && p.nfr then some d.1 else none, s1.count, 0⟩
      if r.1 then .ret true (r.2.evs ++ notify p d.2 r.2) else .ret false r.2.evs

end Verif.Prods
