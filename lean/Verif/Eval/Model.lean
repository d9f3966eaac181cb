import Verif.Ctx.Model
/-!
# The evaluation of expressions and guards in programs

Transcription of `IPGMContext::evaluate_no_dereference`, `evaluate` and of the part of `dereference` that
evaluates (`/repo/r_exec/context.cpp:176-196, 253-319`), of the way operators are applied and leave their
results (`/repo/r_exec/operator.h:195-201`, `/repo/r_exec/_context.cpp:91-128`), and of the guards of
programs and of patterns (`/repo/r_exec/pgm_overlay.cpp:757-789`, context.cpp:510-517).

Simplifications: operators are functions of the values of their operands, which are atoms, or timestamps,
durations, strings and structures of atoms; objects as operands, ins, red, fvw, mod and set are not
described. An operator that fails has set its result to an atom or not at all. An overload is given the
values the operator was given. Pointers are followed as in `Verif.Ctx`, which does not evaluate:
expressions are evaluated where they stand, through pointers into the code, and through variables, but not
in the middle of chains of pointers. Functions take a bound on the depth of recursion; `none` stands for
undefined behaviour, what is not described, and recursion beyond the bound.
-/
namespace Verif.Eval
open Verif.Atom Verif.Ctx

/-- The value of an operand, and the result of an operator (_context.cpp:91-128). -/
inductive Opd
  | atom (w : Word)
  | flat (h : Word) (ws : List Word)
deriving DecidableEq, Repr

/-- What an operator did: returned true with a result, or false, having set an atom or nothing. -/
inductive Res
  | ok (o : Opd)
  | fail (w : Option Word)

/-- The operators, by opcode (operator.h:175-210), and the heads of patterns (context.cpp:285). -/
structure Lang where
  syn : Nat → Bool
  red : Nat → Bool
  ptn : Nat → Bool
  std : Nat → List Opd → Res
  over : Nat → Option (List Opd → Res)

/-- The code of the program with what it sees, and the size of the array of values (overlay.h:113). -/
structure St where
  m : Mem
  nv : Nat

/-- `patch_code` (overlay.cpp:170-174). -/
def St.patch (s : St) (p : Nat) (w : Word) : St :=
  { s with m := { s.m with stem := fun i => if i = p then some w else s.m.stem i } }

/-- Words at the end of the values (_context.cpp:96-128). -/
def St.push (s : St) (ws : List Word) : St :=
  { m := { s.m with values := fun i => if s.nv ≤ i ∧ i < s.nv + ws.length then ws[i - s.nv]? else s.m.values i },
    nv := s.nv + ws.length }

/-- `setAtomicResult`, `setTimestampResult`, `setDurationResult`, `setCompoundResultHead` and
`addCompoundResultPart` (_context.cpp:91-128). -/
def St.put (s : St) (p : Nat) : Opd → St
  | .atom w => s.patch p w
  | .flat h ws => (s.patch p (valuePointer (BitVec.ofNat 16 s.nv))).push (h :: ws)

def St.mark (s : St) (p : Nat) : Option Word → St
  | none => s
  | some w => s.patch p w

def opc (w : Word) : Nat := (asOpcode w).toNat

/-- `Operator::operator ()` (operator.h:195-201), at `p`. -/
def apply (L : Lang) (s : St) (p o : Nat) (vs : List Opd) : St × Bool :=
  match L.std o vs with
  | .ok r => (s.put p r, true)
  | .fail x =>
    match L.over o with
    | none => (s.mark p x, false)
    | some f =>
      match f vs with
      | .ok r => ((s.mark p x).put p r, true)
      | .fail y => ((s.mark p x).mark p y, false)

/-- Consecutive words, as an operator reads them. -/
def words (m : Mem) (d : Ctx) : (i n : Nat) → Option (List Word)
  | _, 0 => some []
  | i, n + 1 => (m.word (d.child i)).bind fun w => (words m d (i + 1) n).map (w :: ·)

/-- What an operator sees of an operand, once dereferenced. -/
def operand (m : Mem) (d : Ctx) : Option Opd :=
  if d.head then none else
  match m.word d with
  | none => none
  | some h =>
    match kind h with
    | .atom => some (.atom h)
    | .wild => some (.atom h)
    | .raw n => (words m d 1 n).map (.flat h)
    | .struct n => (words m d 1 n).bind fun ws => if ws.all (fun w => kind w = .atom) then some (.flat h ws) else none
    | _ => none

/-- A loop over members, that stops at the first that fails (context.cpp:275-279, 301-305). -/
def loop (f : St → Nat → Option (St × Bool)) : (i n : Nat) → St → Option (St × Bool)
  | _, 0, s => some (s, true)
  | i, n + 1, s =>
    match f s i with
    | none => none
    | some (s', false) => some (s', false)
    | some (s', true) => loop f (i + 1) n s'

/-- `get_child_deref(i).evaluate_no_dereference()` (context.cpp:277, 303, 317-318). A context is undefined after
a failure; what is not in the code of the program is not evaluated. -/
def member (df : St → Nat → Option (St × Option Ctx)) (ev : St → Nat → Option (St × Bool)) (s : St) (i : Nat) : Option (St × Bool) :=
  match df s i with
  | none => none
  | some (s', none) => some (s', false)
  | some (s', some d) => if d.sp = .stem then ev s' d.i else some (s', true)

/-- The operands of an operator, as it reads them. -/
def reads (df : St → Nat → Option (St × Option Ctx)) : (i n : Nat) → St → Option (St × List Opd)
  | _, 0, s => some (s, [])
  | i, n + 1, s =>
    match df s i with
    | none => none
    | some (_, none) => none
    | some (s', some d) => (operand s'.m d).bind fun o => (reads df (i + 1) n s').map fun r => (r.1, o :: r.2)

/-- Structures that are in the switch (context.cpp:284-298): all but NULL_PROGRAM, and patterns. -/
def skipped (L : Lang) (w : Word) : Bool := getDescriptor w == 0xCF || (getDescriptor w == 0xC3 && L.ptn (opc w))

mutual
/-- `dereference` (context.cpp:176-196), of the word `i` of the program. -/
def derefE (L : Lang) : Nat → St → Nat → Option (St × Option Ctx)
  | 0, _, _ => none
  | n + 1, s, i =>
    match s.m.at ⟨.stem, i⟩ with
    | some (.iptr k) => derefE L n s k
    | some (.codevl k) =>
      match s.m.at ⟨.stem, k⟩ with
      | some (.iptr j) =>
        match s.m.at ⟨.stem, j⟩ with
        | some .op => (evalE L n s j).map fun r => (r.1, if r.2 then some ⟨.stem, j⟩ else none)
        | some (.struct _) => (evalE L n s j).map fun r => (r.1, if r.2 then some ⟨.stem, j⟩ else none)
        | some (.raw _) => (evalE L n s j).map fun r => (r.1, if r.2 then some ⟨.stem, j⟩ else none)
        | some (.cptr _) => (evalE L n s j).map fun r => (r.1, if r.2 then some ⟨.stem, j⟩ else none)
        | _ => derefE L n s k
      | some .op => none
      | some (.struct _) => none
      | some (.raw _) => none
      | some (.cptr _) => none
      | _ => derefE L n s k
    | some .op => some (s, some ⟨.stem, i⟩)
    | _ => (deref s.m n ⟨.stem, i⟩).map fun d => (s, some d)
/-- `evaluate_no_dereference` (context.cpp:253-310), at the word `p` of the program. -/
def evalE (L : Lang) : Nat → St → Nat → Option (St × Bool)
  | 0, _, _ => none
  | n + 1, s, p =>
    match s.m.word ⟨.stem, p⟩ with
    | none => none
    | some w =>
      match kind w with
      | .op =>
        if L.syn (opc w) then some (s, true)
        else if L.red (opc w) then none
        else
          match loop (member (derefE L n) (evalE L n)) (p + 1) (getAtomCount w).toNat s with
          | none => none
          | some (s', false) => some (s', false)
          | some (s', true) => (reads (derefE L n) (p + 1) (getAtomCount w).toNat s').map fun r => apply L r.1 p (opc w) r.2
      | .struct k => if skipped L w then some (s, true) else loop (member (derefE L n) (evalE L n)) (p + 1) k s
      | _ => some (s, true)
end

/-- `evaluate` (context.cpp:312-319). -/
def evaluate (L : Lang) (n : Nat) : St → Nat → Option (St × Bool) := member (derefE L n) (evalE L n)

/-- A guard: evaluated, and not false (pgm_overlay.cpp:763-769, 781-786). -/
def guard (L : Lang) (n : Nat) (s : St) (i : Nat) : Option (St × Bool) :=
  match evaluate L n s i with
  | none => none
  | some (s', false) => some (s', false)
  | some (s', true) =>
    match derefE L n s' i with
    | some (s'', some d) => (s''.m.word d).map fun w => (s'', !isBooleanFalse w)
    | _ => none

/-- `check_guards` (pgm_overlay.cpp:775-789): the guards of a program, a set at `g`. -/
def checkGuards (L : Lang) (n : Nat) (s : St) (g : Nat) : Option (St × Bool) :=
  match s.m.word ⟨.stem, g⟩ with
  | none => none
  | some w => loop (guard L n) (g + 1) (getAtomCount w).toNat s

/-- The guards of a pattern (pgm_overlay.cpp:761-770), a set at `g`. -/
def patternGuards (L : Lang) (n : Nat) (s : St) (g : Nat) : Option (St × Bool) := guard L n s g

/-- The guards of a pattern of red (context.cpp:510-517), a set at `g`. -/
def redGuards (L : Lang) (n : Nat) (s : St) (g : Nat) : Option (St × Bool) :=
  match s.m.word ⟨.stem, g⟩ with
  | none => none
  | some w => loop (member (derefE L n) (evalE L n)) (g + 1) (getAtomCount w).toNat s

end Verif.Eval
