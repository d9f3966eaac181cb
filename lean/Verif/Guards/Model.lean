import Verif.Words.Model
import Verif.Ops.Model
/-!
# Guards written for learnt models

Transcription of the guard builders (`/repo/r_exec/guard_builder.cpp:95-570`), of the choice of their
parameters (`/repo/r_exec/pattern_extractor.cpp:1161-1335`), and of the evaluation of a guard set
(`/repo/r_exec/hlp_overlay.cpp:133-158`, `/repo/r_exec/hlp_context.cpp:122-198`).

Simplifications: values computed by operators are bound as values (`Val`), not as words patched into
the overlay (`bind_variable`, binding_map.cpp:872-886, binds what the patch holds); guards here are
assignments only, the boolean guards of `evaluate_guards` are not written by the builders.
`ConstBwdArgCmdGuardBuilder` is not modelled.  Indices are natural numbers: they are cut to 12 bits
only when stored in a pointer.
-/
namespace Verif.Guards
open Verif.Atom Verif.Words Verif.Ops

/-! ## Writing -/

/-- `Opcodes::Add`, `Sub`, `Mul`, `Div`: assigned at start-up. -/
structure Opc where
  add : BitVec 16
  sub : BitVec 16
  mul : BitVec 16
  div : BitVec 16

/-- The variables of the patterns: value and timings of the premise (`q0 t0 t1`), of the right-hand
side (`q1 t2 t3`) and of the left-hand side (`s s0 s1`). -/
structure Vars where
  q0 : Nat
  t0 : Nat
  t1 : Nat
  q1 : Nat
  t2 : Nat
  t3 : Nat
  s : Nat
  s0 : Nat
  s1 : Nat
deriving DecidableEq

/-- The model's code, `write_index` and `extent_index`. -/
structure W where
  c : Code
  wi : Nat
  ei : Nat

/-- `mdl->code(++write_index) = Atom::AssignmentPointer(l, ++extent_index)`. -/
def W.assign (w : W) (l : Nat) : W :=
  ⟨put w.c (w.wi + 1) (assignmentPointer (BitVec.ofNat 8 l) (BitVec.ofNat 16 (w.ei + 1))),
   w.wi + 1, w.ei + 1⟩
/-- `mdl->code(extent_index) = a`. -/
def W.here (w : W) (a : Word) : W := { w with c := put w.c w.ei a }
/-- `mdl->code(++extent_index) = a`. -/
def W.next (w : W) (a : Word) : W := ⟨put w.c (w.ei + 1) a, w.wi, w.ei + 1⟩
/-- `Utils::SetDurationStruct`, which is never undefined (`C06_duration_struct_partial`). -/
def putDur (c : Code) (i : Nat) (d : BitVec 64) : Code := (setDurationStruct c i d).getD c
/-- `Utils::SetDurationStruct(mdl, ++extent_index, d); extent_index += 2`. -/
def W.nextDur (w : W) (d : BitVec 64) : W := ⟨putDur w.c (w.ei + 1) d, w.wi, w.ei + 3⟩
/-- `extent_index += 1`. -/
def W.skip (w : W) : W := { w with ei := w.ei + 1 }
/-- `Atom::VLPointer(v)`. -/
def vl (v : Nat) : Word := vlPointer (BitVec.ofNat 16 v)
/-- `Atom::IPointer(i)`. -/
def ip (i : Nat) : Word := iPointer (BitVec.ofNat 16 i)
/-- `mdl->code(header) = Atom::IPointer(++write_index); mdl->code(write_index) = Atom::Set(n);
extent_index = write_index + n`. -/
def W.start (w : W) (header n : Nat) : W :=
  ⟨put (put w.c header (ip (w.wi + 1))) (w.wi + 1) (set (BitVec.ofNat 8 n)), w.wi + 1, w.wi + 1 + n⟩
/-- `write_index = extent_index`. -/
def W.close (w : W) : W := { w with wi := w.ei }

/-- `MDL_FWD_GUARDS`, `MDL_BWD_GUARDS` (replicode_defs.h:208-209). -/
def fwdGuards : Nat := 3
def bwdGuards : Nat := 4

/-- `TimingGuardBuilder::write_guard` (guard_builder.cpp:115-124). -/
def W.guard (w : W) (l r : Nat) (op : BitVec 16) (d : BitVec 64) : W :=
  let w := (w.assign l).here (operator op 2)
  let w := w.next (vl r)
  let w := w.next (ip (w.ei + 2))
  w.nextDur d

inductive Builder
  | timing (period : BitVec 64)
  | speed (period offset : BitVec 64)
  | noArg (period offset cmdDuration : BitVec 64)
  | cmd (mul : Bool) (period offset : BitVec 64)
  | const (mul : Bool) (period offset : BitVec 64) (k : BitVec 32)
deriving DecidableEq

def fwdOp (O : Opc) (mul : Bool) : BitVec 16 := if mul then O.mul else O.add
def bwdOp (O : Opc) (mul : Bool) : BitVec 16 := if mul then O.div else O.sub

/-- The timing guards common to all builders. -/
def W.fwdTimings (w : W) (O : Opc) (V : Vars) (p : BitVec 64) : W :=
  (w.guard V.t2 V.t0 O.add p).guard V.t3 V.t1 O.add p
def W.bwdTimings (w : W) (O : Opc) (V : Vars) (p : BitVec 64) : W :=
  (w.guard V.t0 V.t2 O.sub p).guard V.t1 V.t3 O.sub p

/-- `_build` of `TimingGuardBuilder` (guard_builder.cpp:126-150), `SGuardBuilder` (179-239),
`NoArgCmdGuardBuilder` (270-304), `CmdGuardBuilder` (336-387), `ConstGuardBuilder` (433-475). -/
def buildW (O : Opc) (V : Vars) (w : W) : Builder → W
  | .timing p =>
    let w := ((w.start fwdGuards 2).fwdTimings O V p).close
    ((w.start bwdGuards 2).bwdTimings O V p).close
  | .speed p off =>
    let w := (w.start fwdGuards 3).fwdTimings O V p
    let w := (w.assign V.q1).here (operator O.add 2)
    let w := w.next (vl V.q0)
    let w := w.next (ip (w.ei + 2))
    let w := w.next (operator O.mul 2)
    let w := w.next (vl V.s)
    let w := w.next (ip (w.ei + 2))
    let w := (w.nextDur p).close
    let w := (w.start bwdGuards 5).bwdTimings O V p
    let w := (w.guard V.s0 V.t2 O.sub off).guard V.s1 V.t3 O.sub p
    let w := (w.assign V.s).here (operator O.div 2)
    let w := w.next (ip (w.ei + 3))
    let w := w.next (ip (w.ei + 5))
    let w := w.next (operator O.sub 2)
    let w := w.next (vl V.q1)
    let w := w.next (vl V.q0)
    (w.nextDur p).close
  | .noArg p off _ =>
    let w := ((w.start fwdGuards 2).fwdTimings O V p).close
    let w := (w.start bwdGuards 4).bwdTimings O V p
    ((w.guard V.s0 V.t2 O.sub off).guard V.s1 V.t3 O.sub p).close
  | .cmd m p off =>
    let w := (w.start fwdGuards 3).fwdTimings O V p
    let w := (w.assign V.q1).here (operator (fwdOp O m) 2)
    let w := ((w.next (vl V.q0)).next (vl V.s)).skip.close
    let w := (w.start bwdGuards 5).bwdTimings O V p
    let w := (w.guard V.s0 V.t2 O.sub off).guard V.s1 V.t3 O.sub p
    let w := (w.assign V.s).here (operator (bwdOp O m) 2)
    ((w.next (vl V.q1)).next (vl V.q0)).skip.close
  | .const m p off k =>
    let w := (w.start fwdGuards 3).fwdTimings O V p
    let w := (w.assign V.q1).here (operator (fwdOp O m) 2)
    let w := ((w.next (vl V.q0)).next (float k)).skip.close
    let w := (w.start bwdGuards 5).bwdTimings O V p
    -- `lhs = mdl->get_reference(1)`: the right-hand side.
    let w := (w.guard V.t2 V.t2 O.sub off).guard V.t3 V.t3 O.sub p
    let w := (w.assign V.q0).here (operator (bwdOp O m) 2)
    ((w.next (vl V.q1)).next (float k)).skip.close

def build (O : Opc) (V : Vars) (b : Builder) (c : Code) (wi : Nat) : Code × Nat :=
  let w := buildW O V ⟨c, wi, 0⟩ b
  (w.c, w.wi)

/-! ## Evaluating -/

/-- The bindings: values of the variables. -/
abbrev Bind := Nat → Option Val

def Bind.set (e : Bind) (x : Nat) (v : Val) : Bind := fun y => if y = x then some v else e y

/-- The value an operator answers, if it does. -/
def value : Res → Option Val
  | .ok v => some v
  | _ => none

/-- Calling the operator of opcode `op`; `none` when it fails or is undefined. -/
def call (E : Env) (O : Opc) (op : BitVec 16) (x y : Val) : Option Val :=
  value (if op = O.add then add E x y else if op = O.sub then sub E x y
    else if op = O.mul then mul E x y else if op = O.div then div E x y else .fail)

/-- A constant's number, from the 31 bits stored: any decoding (`Atom::asFloat`). -/
abbrev Dec := Word → Num

/-- `HLPContext::dereference` and `evaluate_no_dereference` of an expression
(hlp_context.cpp:122-198): pointers are followed, variables looked up, operators applied to their
evaluated arguments.  Positions are 16-bit: deeper recursion than 65536 never returns. -/
def eval (E : Env) (O : Opc) (dec : Dec) (c : Code) (e : Bind) : Nat → Nat → Option Val
  | 0, _ => none
  | fuel + 1, i =>
    match get c i with
    | none => none
    | some a =>
      if isFloat a then some (.num (dec a))
      else if getDescriptor a = 0x84 then eval E O dec c e fuel (asIndex a).toNat
      else if getDescriptor a = 0x86 then e (asIndex a).toNat
      else if getDescriptor a = 0xC5 then
        if getAtomCount a = 2 then
          match eval E O dec c e fuel (i + 1), eval E O dec c e fuel (i + 2) with
          | some x, some y => call E O (asOpcode a) x y
          | _, _ => none
        else none
      else if getDescriptor a = 0xD0 then
        match getInt64 c (i + 1) with
        | some d => some (.dur d.toInt)
        | none => none
      else none

/-- The `ASSIGN_PTR` case (hlp_context.cpp:151-162): the variable is bound to the value of the
expression; if there is none the guard holds when the variable is already bound. -/
def assign (E : Env) (O : Opc) (dec : Dec) (c : Code) (e : Bind) (i : Nat) : Option Bind :=
  match get c i with
  | none => none
  | some a =>
    if getDescriptor a = 0x8D then
      match eval E O dec c e 65536 (asIndex a).toNat with
      | some v => some (e.set (asAssignmentIndex a).toNat v)
      | none => if (e (asAssignmentIndex a).toNat).isSome then some e else none
    else none

/-- The loop of `evaluate_guards` over `n` guards from position `i` (hlp_overlay.cpp:133-148). -/
def evalFrom (E : Env) (O : Opc) (dec : Dec) (c : Code) : Nat → Nat → Bind → Option Bind
  | 0, _, e => some e
  | n + 1, i, e => match assign E O dec c e i with
    | none => none
    | some e' => evalFrom E O dec c n (i + 1) e'

/-- `evaluate_guards(guard_set_iptr_index)` (hlp_overlay.cpp:133-148). -/
def evalGuards (E : Env) (O : Opc) (dec : Dec) (c : Code) (header : Nat) (e : Bind) : Option Bind :=
  match get c header with
  | none => none
  | some p => match get c (asIndex p).toNat with
    | none => none
    | some s => evalFrom E O dec c (getAtomCount s).toNat ((asIndex p).toNat + 1) e

/-! ## What the learner asks for -/

/-- The timings of the premise, of the cause and of the consequent a model is learnt from. -/
structure Learnt where
  a0 : Int
  b0 : Int
  ac : Int
  bc : Int
  a2 : Int
  b2 : Int

inductive Kind
  | timing | speed | noArg | cmd (mul : Bool) | const (mul : Bool) (k : BitVec 32)

/-- `CTPX::reduce`, `get_default_guard_builder`, `find_guard_builder` (pattern_extractor.cpp:1117,
1161-1335): `period = consequent.after - premise.after`; the offset is `consequent.after -
cause.after`, as `period - (cause.after - premise.after)` for the forms with a value, except that the
constant forms get `cause.after - premise.after`. -/
def learn (L : Learnt) : Kind → Builder
  | .timing => .timing (BitVec.ofInt 64 (L.a2 - L.a0))
  | .speed => .speed (BitVec.ofInt 64 (L.a2 - L.a0)) (BitVec.ofInt 64 (L.a2 - L.a0 - (L.ac - L.a0)))
  | .noArg => .noArg (BitVec.ofInt 64 (L.a2 - L.a0)) (BitVec.ofInt 64 (L.a2 - L.ac))
      (BitVec.ofInt 64 (L.bc - L.ac))
  | .cmd m => .cmd m (BitVec.ofInt 64 (L.a2 - L.a0)) (BitVec.ofInt 64 (L.a2 - L.a0 - (L.ac - L.a0)))
  | .const m k => .const m (BitVec.ofInt 64 (L.a2 - L.a0)) (BitVec.ofInt 64 (L.ac - L.a0)) k

end Verif.Guards
