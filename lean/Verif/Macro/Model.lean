import Verif.Source.Spec
/-!
# Macros, counters, conditions and files loaded

`RepliStruct::process`, `RepliMacro::expandMacro`, `findAtom` and `RepliCondition` (r_comp/preprocessor.cpp:602-773,
930-1075) over the structures of `Source`. Structures are changed in place there; here the changed structure is
returned. Simplified: a file is known by one name (`fs::equivalent`), counters do not overflow, `parent_`, `line_`
and the texts of errors are left out.
-/
namespace Verif.Macro
open Verif.Source

abbrev Name := List Char

def _root_.Verif.Source.Tree.label : Tree → List Char | .mk _ l _ _ _ => l
def _root_.Verif.Source.Tree.tail : Tree → List Char | .mk _ _ _ t _ => t
def _root_.Verif.Source.Tree.withCmd : Tree → Name → Tree | .mk k l _ t a, c => .mk k l c t a
def _root_.Verif.Source.Tree.withLabel : Tree → List Char → Tree | .mk k _ c t a, l => .mk k l c t a
def _root_.Verif.Source.Tree.withArgs : Tree → List Tree → Tree | .mk k l c t _, a => .mk k l c t a

/-! ## Expansion -/

mutual
/-- `findAtom` (preprocessor.cpp:1024-1045) with the structure found overwritten by `new`, in a member. -/
def overwrite (name : Name) (new : Tree) : Tree → Option Tree
  | .mk .atom l c t a => if c = name then some new else none
  | .mk .struct l c t a => (overwriteFirst name new a).map (.mk .struct l c t)
  | .mk .set l c t a => (overwriteFirst name new a).map (.mk .set l c t)
  | .mk .development l c t a => (overwriteFirst name new a).map (.mk .development l c t)
  | .mk _ _ _ _ _ => none
/-- The same among members: the first that has it. -/
def overwriteFirst (name : Name) (new : Tree) : List Tree → Option (List Tree)
  | [] => none
  | t :: ts =>
    match overwrite name new t with
    | some t' => some (t' :: ts)
    | none => (overwriteFirst name new ts).map (t :: ·)
end

/-- `RepliMacro` (preprocessor.h:154-167); the name is the command of `src`. -/
structure Macro where
  src : Tree
  dest : Tree

/-- preprocessor.cpp:993-1003: each parameter in turn. -/
def fill : List Tree → List Tree → List Tree → List Tree
  | p :: ps, a :: as, body => fill ps as ((overwriteFirst p.cmd a body).getD body)
  | _, _, body => body

/-- `expandMacro` (preprocessor.cpp:970-1022) for a structure with the name of the macro. -/
def expandMacro (m : Macro) (old : Tree) : Option Tree :=
  if m.src.args.length > 0 ∧ m.src.args.length ≠ old.args.length then none
  else if m.src.args.length = 0 ∧ old.args.length > 0 then some (old.withCmd m.dest.cmd)
  else
    let new := m.dest.withLabel old.label
    some (new.withArgs (fill m.src.args old.args new.args))

/-! ## Processing -/

/-- What is kept between structures and passes (preprocessor.h:100-104). -/
structure St where
  macros : Name → Option Macro
  counters : Name → Option Int
  /-- `Conditions_`: names, and whether reversed -/
  conds : List (Name × Bool)
  loaded : List Name

/-- `RepliCondition::isActive` (preprocessor.cpp:1063-1074). -/
def St.active (st : St) (c : Name × Bool) : Bool :=
  let found := (st.macros c.1).isSome || (st.counters c.1).isSome
  if c.2 then !found else found

def set {α : Type} (f : Name → Option α) (n : Name) (v : Option α) : Name → Option α := fun x => if x = n then v else f x

/-- Errors and undefined behaviour. -/
inductive Bad | failed | undefined
  deriving DecidableEq

/-- The number of changes, what is kept, and the structure. -/
abbrev Res := Except Bad (Nat × St × Tree)

/-- preprocessor.cpp:611-615 and 759-763. -/
def count (st : St) (t : Tree) : Nat × St × Tree :=
  match st.counters t.cmd with
  | some v => (1, { st with counters := set st.counters t.cmd (some (v + 1)) }, t.withCmd (toString v).toList)
  | none => (0, st, t)

/-- preprocessor.cpp:617-632 and 732-747: nothing if the expansion fails. -/
def use (st : St) (t : Tree) : Option (Nat × Tree) :=
  match st.macros t.cmd with
  | some m => (expandMacro m t).map fun t' => (1, t')
  | none => some (0, t)

/-- preprocessor.cpp:642-659: the conditions after a line with a condition; nothing where an empty list is read. -/
def condition (st : St) (s : Tree) : Option (List (Name × Bool)) :=
  if s.cmd = "!ifdef".toList then s.args.head?.map fun a => st.conds ++ [(a.cmd, false)]
  else if s.cmd = "!ifundef".toList then s.args.head?.map fun a => st.conds ++ [(a.cmd, true)]
  else if s.cmd = "!else".toList then st.conds.getLast?.map fun c => st.conds.dropLast ++ [(c.1, !c.2)]
  else if s.cmd = "!endif".toList then if st.conds = [] then none else some st.conds.dropLast
  else some st.conds

/-- `atoi`: the digits at the start, after a sign. -/
def atoi (n : Name) : Int :=
  let digits (l : Name) : Int := (l.takeWhile Char.isDigit).foldl (fun v c => v * 10 + (c.toNat - 48 : Nat)) 0
  match n with
  | '-' :: l => - digits l
  | '+' :: l => digits l
  | l => digits l

/-- Files as read (`loadReplicodeFile`, preprocessor.cpp:775-805): nothing if one cannot be. -/
abbrev Files := Name → Option (List Tree)

/-- What a directive other than `!def` does (preprocessor.cpp:670-729): what is kept and, for `!load`, the lines
loaded. -/
def directive (fs : Files) (st : St) (s : Tree) : Except Bad (St × Option (List Tree)) :=
  if s.cmd = "!counter".toList then
    match s.args.head? with
    | none => .error .undefined
    | some a =>
      let v := if s.args.length > 1 then atoi ((s.args.getLast?.map Tree.cmd).getD []) else 0
      .ok ({ st with counters := set st.counters a.cmd (some v) }, none)
  else if s.cmd = "!undef".toList then
    match s.args.head? with
    | none => .error .undefined
    | some a =>
      -- `erase` of what `find` gives, which must not be the end
      if (st.macros a.cmd).isSome ∧ (st.counters a.cmd).isSome then
        .ok ({ st with macros := set st.macros a.cmd none, counters := set st.counters a.cmd none }, none)
      else .error .undefined
  else if s.cmd = "!load".toList then
    match s.args.head? with
    | none => .error .undefined
    | some a =>
      if a.cmd ∈ st.loaded then .ok (st, some [])
      else
        match fs a.cmd with
        | none => .error .failed
        | some ls => .ok ({ st with loaded := st.loaded ++ [a.cmd] }, some ls)
  else .ok (st, none)

mutual
/-- `process` (preprocessor.cpp:610-781) with so many calls and rounds. -/
def process (fs : Files) : Nat → St → Tree → Option Res
  | 0, _, _ => none
  | f + 1, st, t =>
    let c := count st t
    match use c.2.1 c.2.2 with
    | none => some (.error .failed)
    | some (n, t') =>
      if t'.args = [] then some (.ok (c.1 + n, c.2.1, t')) else loop fs f c.2.1 t' [] t'.args (c.1 + n)
/-- The loop over the members: those before, and those to come. -/
def loop (fs : Files) : Nat → St → Tree → List Tree → List Tree → Nat → Option Res
  | 0, _, _, _, _, _ => none
  | _ + 1, st, t, done, [], n => some (.ok (n, st, t.withArgs done))
  | f + 1, st, t, done, s :: rest, n =>
    if s.kind = .condition then
      match condition st s with
      | none => some (.error .undefined)
      | some cs => some (.ok (0, { st with conds := cs }, t.withArgs (done ++ s :: rest)))
    else if ¬ st.conds.all st.active then some (.ok (0, st, t.withArgs (done ++ s :: rest)))
    else if s.kind = .directive then
      if s.cmd = "!def".toList then
        match s.args.head?, s.args.getLast? with
        | some src, some dest =>
          (repeated fs f st dest 0).bind fun r =>
            match r with
            | .error b => some (.error b)
            | .ok (k, st, dest) =>
              let s := s.withArgs (s.args.dropLast ++ [dest])
              let src := if s.args.length = 1 then dest else src
              let c := count { st with macros := set st.macros src.cmd (some ⟨src, dest⟩) } s
              loop fs f c.2.1 t (done ++ [c.2.2]) rest (n + k + c.1)
        | _, _ => some (.error .undefined)
      else
        match directive fs st s with
        | .error b => some (.error b)
        | .ok (st, some ls) =>
          match ls ++ rest with
          | [] => some (.ok (n + 1, st, t.withArgs done))
          | x :: xs => loop fs f st t (done ++ [x]) xs (n + 1)
        | .ok (st, none) =>
          let c := count st s
          loop fs f c.2.1 t (done ++ [c.2.2]) rest (n + c.1)
    else
      match use st s with
      | none => some (.error .failed)
      | some (k, s) =>
        (members fs f st [] s.args 0).bind fun r =>
          match r with
          | .error b => some (.error b)
          | .ok (j, st, as) =>
            let c := count st (s.withArgs as)
            loop fs f c.2.1 t (done ++ [c.2.2]) rest (n + k + j + c.1)
/-- The members of a structure (preprocessor.cpp:749-755). -/
def members (fs : Files) : Nat → St → List Tree → List Tree → Nat → Option (Except Bad (Nat × St × List Tree))
  | 0, _, _, _, _ => none
  | _ + 1, st, done, [], n => some (.ok (n, st, done))
  | f + 1, st, done, s :: rest, n =>
    (process fs f st s).bind fun r =>
      match r with
      | .error b => some (.error b)
      | .ok (k, st, s) => members fs f st (done ++ [s]) rest (n + k)
/-- Processing until nothing changes (preprocessor.cpp:679-681, 1108-1114). -/
def repeated (fs : Files) : Nat → St → Tree → Nat → Option Res
  | 0, _, _, _ => none
  | f + 1, st, t, n =>
    (process fs f st t).bind fun r =>
      match r with
      | .error b => some (.error b)
      | .ok (0, st, t) => some (.ok (n, st, t))
      | .ok (k + 1, st, t) => repeated fs f st t (n + k + 1)
end

/-- At the start. -/
def St.new : St := ⟨fun _ => none, fun _ => none, [], []⟩

/-- `Preprocessor::process` (preprocessor.cpp:1088-1136) for a file as read: what is written, if there is no error. -/
def preprocess (fs : Files) (f : Nat) (root : Tree) : Option (Except Bad (List Char)) :=
  (repeated fs f .new root 0).map fun r => r.map fun x => x.2.2.print

end Verif.Macro
