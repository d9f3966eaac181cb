/-!
# The reduction operator

Transcription of `match`, `reduce` and `IPGMContext::Red` (`/repo/r_exec/context.cpp:501-649`).

Inputs are numbered from 1.  A section is described by the opcode of its pattern, by what the
skeleton and the guards answer for each input (`skel`, `guards`; the guards are evaluated with the
pattern patched to that input), and by the number of its productions, `none` if they are not a set.
Productions are named by section, input and number instead of by their address in the value array.
The patch left behind when a guard fails (context.cpp:535) is not described: the loop stops there, and
the pattern of a section is not used after it.
-/
namespace Verif.Red

inductive Kind | ptn | antiPtn | other
deriving DecidableEq, Repr

structure Section where
  kind : Kind
  skel : Nat → Bool
  guards : Nat → Bool
  prods : Option Nat

/-- `match` of context.cpp:525-551: whether productions are built for the input. -/
def matches_ (s : Section) (i : Nat) : Bool :=
  match s.kind with
  | .ptn => if !s.skel i then false else if !s.guards i then false else true
  | .antiPtn => if s.skel i then false else if s.guards i then false else true
  | .other => false

/-- context.cpp:553-563: all productions for an input. -/
def build (tag : Bool) (i n : Nat) : List (Bool × Nat × Nat) := (List.range n).map fun k => (tag, i, k + 1)

/-- The loop of `reduce` (context.cpp:583-603) over what is left of the list; `done` is what the
iterator has passed (always empty, as the loop stops at the first failure). -/
def loop (defined : Nat → Bool) (s : Section) (tag : Bool) (n : Nat) : List Nat → List (Bool × Nat × Nat) →
    List Nat × List (Bool × Nat × Nat)
  | [], out => ([], out)
  | i :: is, out =>
    if !defined i then loop defined s tag n is out
    else if !matches_ s i then (i :: is, out)
    else loop defined s tag n is (out ++ build tag i n)

/-- `reduce` (context.cpp:568-604). -/
def reduce (defined : Nat → Bool) (s : Section) (tag : Bool) (todo : List Nat) (out : List (Bool × Nat × Nat)) :
    List Nat × List (Bool × Nat × Nat) :=
  if s.kind = .other then (todo, out)
  else match s.prods with
    | none => (todo, out)
    | some n => if n = 0 then (todo, out) else loop defined s tag n todo out

/-- The part of `Red` after the evaluation of its arguments (context.cpp:620-649), for well-formed
arguments: what is returned, and the productions in the result. -/
def red (defined : Nat → Bool) (pos neg : Section) (count : Nat) : Bool × List (Bool × Nat × Nat) :=
  let todo := (List.range count).map (· + 1)
  if count = 0 then (false, [])
  else
    let r1 := reduce defined pos true todo []
    let r2 := reduce defined neg false r1.1 r1.2
    if r2.2.length ≠ 0 then (true, r2.2) else (false, [])

end Verif.Red
