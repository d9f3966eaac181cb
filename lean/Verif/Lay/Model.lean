/-!
# The code of a learnt model

Transcription of `_TPX::build_mdl_head_from_abstract` and `build_mdl_tail` (`/repo/r_exec/pattern_extractor.cpp:452-501`) and
of the guard builders (`/repo/r_exec/guard_builder.cpp:98-583`), with `ConstBwdArgCmdGuardBuilder`, which `Verif.Guards` leaves out.

The code is a function from positions to words; a word that was not written is `nil`.  Words keep what is put into them: that indices
and counts fit is the subject of `Verif.Atom` (C01).  A timestamp takes three words (`Verif.Words`, C06).  The structure that
is copied into a guard (568-580) has no structures in it: that copies of these are the same is C76.  What the builders take from
the patterns are variables (`Vars`).
-/
namespace Verif.Lay

inductive Fn where
  | add | sub | mul | div | id
deriving DecidableEq, Repr

/-- A word. -/
inductive Cell where
  | nil
  | mdl
  | ip (i : Nat)
  | vl (v : Nat)
  | rp (r : Nat)
  | set (n : Nat)
  | ti
  | num (k : Nat)
  | other (k : Nat)
  | op (f : Fn) (n : Nat)
  | obj (k n : Nat)
  | asg (v i : Nat)
  | dur
  | hi (d : Int)
  | lo (d : Int)
deriving DecidableEq, Repr

abbrev Code := Nat → Cell

def put (c : Code) (i : Nat) (x : Cell) : Code := fun j => if j = i then x else c j

/-- The code, `write_index` and `extent_index`. -/
structure W where
  c : Code
  wi : Nat
  ei : Nat := 0

/-- `mdl->code(++write_index) = x`. -/
def W.write (w : W) (x : Cell) : W := { w with c := put w.c (w.wi + 1) x, wi := w.wi + 1 }

/-- `mdl->code(header) = Atom::IPointer(++write_index); mdl->code(write_index) = x`. -/
def W.part (w : W) (header : Nat) (x : Cell) : W := { w with c := put (put w.c header (.ip (w.wi + 1))) (w.wi + 1) x, wi := w.wi + 1 }

/-- `mdl->code(++write_index) = Atom::AssignmentPointer(v, ++extent_index); mdl->code(extent_index) = x`. -/
def W.assign (w : W) (v : Nat) (x : Cell) : W :=
  ⟨put (put w.c (w.wi + 1) (.asg v (w.ei + 1))) (w.ei + 1) x, w.wi + 1, w.ei + 1⟩

/-- `mdl->code(++extent_index) = x`. -/
def W.next (w : W) (x : Cell) : W := { w with c := put w.c (w.ei + 1) x, ei := w.ei + 1 }

/-- `Utils::SetDurationStruct(mdl, ++extent_index, d); extent_index += 2`. -/
def W.nextDur (w : W) (d : Int) : W := ((w.next .dur).next (.hi d)).next (.lo d)

/-- `extent_index += 1`. -/
def W.skip (w : W) : W := { w with ei := w.ei + 1 }

/-- `write_index = extent_index`. -/
def W.close (w : W) : W := { w with wi := w.ei }

/-- The words of a structure. -/
def W.nexts (w : W) : List Cell → W
  | [] => w
  | x :: xs => (w.next x).nexts xs

/-- The template arguments (pattern_extractor.cpp:464-465, 476-477). -/
def W.vars (w : W) (i : Nat) : Nat → W
  | 0 => w
  | n + 1 => (w.write (.vl i)).vars (i + 1) n

/-- `MDL_TPL_ARGS` and so on (`/repo/r_code/replicode_defs.h:206-215`). -/
def tplArgs : Nat := 1
def objs : Nat := 2
def fwdGuards : Nat := 3
def bwdGuards : Nat := 4
def outGrps : Nat := 5
def arity : Nat := 10

/-- `build_mdl_head_from_abstract` (452-486). -/
def head (n : Nat) : W :=
  let w : W := { c := put (fun _ => .nil) 0 .mdl, wi := arity }
  let w := if 2 ≤ n then
      let w := (w.part tplArgs (.set (n - 1))).vars 0 (n - 2)
      let w := w.write (.ip (w.wi + 2))
      ((w.write .ti).write (.vl (n - 2))).write (.vl (n - 1))
    else (w.part tplArgs (.set n)).vars 0 n
  ((w.part objs (.set 2)).write (.rp 0)).write (.rp 1)

/-- `build_mdl_tail` (488-501). -/
def tail (w : W) : Code :=
  let w := (w.part outGrps (.set 1)).write (.rp 2)
  put (put (put (put (put w.c 6 (.num 0)) 7 (.num 1)) 8 (.num 1)) 9 (.num 1)) arity (.num 1)

/-- The variables of the patterns: value and times of the premise, of the right-hand side and of the left-hand side. -/
structure Vars where
  q0 : Nat
  t0 : Nat
  t1 : Nat
  q1 : Nat
  t2 : Nat
  t3 : Nat
  s : Nat
  s0 : Nat
  s1 : Nat
deriving DecidableEq

/-- An argument of a command: an object in its code, a number, or another word. -/
inductive Arg where
  | obj (k : Nat) (xs : List Cell)
  | num (k : Nat)
  | word (x : Cell)
deriving DecidableEq

/-- A builder and what it was made with. -/
inductive Builder where
  | none
  | timing (p : Int)
  | speed (p off : Int)
  | noArg (p off : Int)
  | cmd (mul : Bool) (p off : Int)
  | const (mul : Bool) (p off : Int) (k : Nat)
  | bwdArg (p off : Int) (a : Arg)
deriving DecidableEq

/-- `write_guard` (guard_builder.cpp:115-124). -/
def W.guard (w : W) (l r : Nat) (f : Fn) (d : Int) : W :=
  let w := (w.assign l (.op f 2)).next (.vl r)
  (w.next (.ip (w.ei + 2))).nextDur d

/-- `mdl->code(header) = Atom::IPointer(++write_index); mdl->code(write_index) = Atom::Set(n); extent_index = write_index + n`. -/
def W.start (w : W) (header n : Nat) : W :=
  let w := w.part header (.set n)
  { w with ei := w.wi + n }

def fwdFn (mul : Bool) : Fn := if mul then .mul else .add
def bwdFn (mul : Bool) : Fn := if mul then .div else .sub

/-- Lines 568-580. -/
def W.arg (w : W) (v : Nat) : Arg → W
  | .obj k xs => ((w.assign v (.obj k xs.length)).nexts xs).skip
  | .num k => ((w.assign v (.op .id 1)).next (.num k)).skip
  | .word _ => { w with c := put w.c (w.wi + 1) (.asg v (w.ei + 1)), wi := w.wi + 1, ei := w.ei + 1 }

/-- The times of the right-hand side from those of the premise, and the other way round. -/
def W.fwd (w : W) (V : Vars) (p : Int) : W := (w.guard V.t2 V.t0 .add p).guard V.t3 V.t1 .add p
def W.bwd (w : W) (V : Vars) (p : Int) : W := (w.guard V.t0 V.t2 .sub p).guard V.t1 V.t3 .sub p

/-- `_build` of the builders (98-105, 126-150, 179-236, 268-299, 330-375, 432-476, 533-583). -/
def buildW (V : Vars) (w : W) : Builder → W
  | .none => (w.part fwdGuards (.set 0)).part bwdGuards (.set 0)
  | .timing p =>
    let w := ((w.start fwdGuards 2).fwd V p).close
    ((w.start bwdGuards 2).bwd V p).close
  | .speed p off =>
    let w := (w.start fwdGuards 3).fwd V p
    let w := (w.assign V.q1 (.op .add 2)).next (.vl V.q0)
    let w := w.next (.ip (w.ei + 2))
    let w := (w.next (.op .mul 2)).next (.vl V.s)
    let w := ((w.next (.ip (w.ei + 2))).nextDur p).close
    let w := (w.start bwdGuards 5).bwd V p
    let w := (w.guard V.s0 V.t2 .sub off).guard V.s1 V.t3 .sub p
    let w := w.assign V.s (.op .div 2)
    let w := w.next (.ip (w.ei + 3))
    let w := w.next (.ip (w.ei + 5))
    ((((w.next (.op .sub 2)).next (.vl V.q1)).next (.vl V.q0)).nextDur p).close
  | .noArg p off =>
    let w := ((w.start fwdGuards 2).fwd V p).close
    let w := (w.start bwdGuards 4).bwd V p
    ((w.guard V.s0 V.t2 .sub off).guard V.s1 V.t3 .sub p).close
  | .cmd m p off =>
    let w := (w.start fwdGuards 3).fwd V p
    let w := (((w.assign V.q1 (.op (fwdFn m) 2)).next (.vl V.q0)).next (.vl V.s)).skip.close
    let w := (w.start bwdGuards 5).bwd V p
    let w := (w.guard V.s0 V.t2 .sub off).guard V.s1 V.t3 .sub p
    (((w.assign V.s (.op (bwdFn m) 2)).next (.vl V.q1)).next (.vl V.q0)).skip.close
  | .const m p off k =>
    let w := (w.start fwdGuards 3).fwd V p
    let w := (((w.assign V.q1 (.op (fwdFn m) 2)).next (.vl V.q0)).next (.num k)).skip.close
    let w := (w.start bwdGuards 5).bwd V p
    -- `lhs = mdl->get_reference(1)`: the right-hand side.
    let w := (w.guard V.t2 V.t2 .sub off).guard V.t3 V.t3 .sub p
    (((w.assign V.q0 (.op (bwdFn m) 2)).next (.vl V.q1)).next (.num k)).skip.close
  | .bwdArg p off a =>
    let w := ((w.start fwdGuards 2).fwd V p).close
    let w := (w.start bwdGuards 5).bwd V p
    let w := (w.guard V.s0 V.t2 .sub off).guard V.s1 V.t3 .sub p
    (w.arg V.s a).close

/-- What is taken for the premise (152-169, 238-257, 301-320, 377-396, 478-497, 535-536): without template arguments the variables of
a pattern, with any the variables 0, 1 and 2; the last builder always does the latter. -/
def premise (w : W) (V : Vars) (b : Builder) : Vars :=
  let tpl : Vars := { V with q0 := 0, t0 := 1, t1 := 2 }
  match b with
  | .bwdArg .. => tpl
  | _ =>
    match w.c tplArgs with
    | .ip i => if w.c i = .set 0 then V else tpl
    | _ => tpl

/-- `build_mdl_head`, the builder and `build_mdl_tail`. -/
def build (n : Nat) (V : Vars) (b : Builder) : Code :=
  let w := head n
  tail (buildW (premise w V b) w b)

end Verif.Lay
