import Verif.Lay.Model
/-!
# What is wanted of the code of a learnt model (C177)
-/
namespace Verif.Lay

inductive Hd where
  | mdl | set | ti
  | fn (f : Fn)
  | obj (k : Nat)
deriving DecidableEq

/-- What code stands for. -/
inductive Tree where
  | var (v : Nat)
  | num (k : Nat)
  | ref (o : Nat)
  | other (k : Nat)
  | dur (d : Int)
  | app (h : Hd) (ts : List Tree)
  | asg (v : Nat) (t : Tree)

/-- The values at `n` positions one after the other. -/
def readN (r : Nat → Option Tree) : Nat → Nat → Option (List Tree)
  | 0, _ => some []
  | n + 1, i => (r i).bind fun t => (readN r n (i + 1)).map fun ts => t :: ts

/-- The value at a position of the code of an object that has the references `refs`. -/
def read (c : Code) (refs : List Nat) : Nat → Nat → Option Tree
  | 0, _ => none
  | f + 1, i =>
    match c i with
    | .vl v => some (.var v)
    | .num k => some (.num k)
    | .other k => some (.other k)
    | .rp r => refs[r]?.map .ref
    | .ip j => read c refs f j
    | .asg v j => (read c refs f j).map (.asg v)
    | .dur =>
      match c (i + 1), c (i + 2) with
      | .hi d, .lo e => if d = e then some (.dur d) else none
      | _, _ => none
    | .set n => (readN (read c refs f) n (i + 1)).map (.app .set)
    | .op g n => (readN (read c refs f) n (i + 1)).map (.app (.fn g))
    | .obj k n => (readN (read c refs f) n (i + 1)).map (.app (.obj k))
    | .ti => (readN (read c refs f) 2 (i + 1)).map (.app .ti)
    | .mdl => (readN (read c refs f) 10 (i + 1)).map (.app .mdl)
    | _ => none

/-- `l:(f r d)`. -/
def timed (l r : Nat) (f : Fn) (d : Int) : Tree := .asg l (.app (.fn f) [.var r, .dur d])

/-- `l:(f a b)`. -/
def sets (l : Nat) (f : Fn) (a b : Tree) : Tree := .asg l (.app (.fn f) [a, b])

/-- The value of an argument of a command that has the references `refs`; `id` of a number, which is how it can be assigned. -/
def Arg.tree (refs : List Nat) : Arg → Option Tree
  | .obj k xs => (readN (read (fun i => xs.getD i .nil) refs 1) xs.length 0).map (.app (.obj k))
  | .num k => some (.app (.fn .id) [.num k])
  | .word x => read (fun _ => x) refs 1 0

/-- The guards forward: the right-hand side from the premise and the left-hand side. -/
def fwdOf (V : Vars) : Builder → List Tree
  | .none => []
  | .timing p | .noArg p _ | .bwdArg p _ _ => [timed V.t2 V.t0 .add p, timed V.t3 V.t1 .add p]
  | .speed p _ => [timed V.t2 V.t0 .add p, timed V.t3 V.t1 .add p, sets V.q1 .add (.var V.q0) (.app (.fn .mul) [.var V.s, .dur p])]
  | .cmd m p _ => [timed V.t2 V.t0 .add p, timed V.t3 V.t1 .add p, sets V.q1 (if m then .mul else .add) (.var V.q0) (.var V.s)]
  | .const m p _ k => [timed V.t2 V.t0 .add p, timed V.t3 V.t1 .add p, sets V.q1 (if m then .mul else .add) (.var V.q0) (.num k)]

/-- The guards backward: the premise and the left-hand side from the right-hand side. -/
def bwdOf (V : Vars) (cmdRefs : List Nat) : Builder → Option (List Tree)
  | .none => some []
  | .timing p => some [timed V.t0 V.t2 .sub p, timed V.t1 V.t3 .sub p]
  | .noArg p off => some (base p off)
  | .speed p off => some (base p off ++ [sets V.s .div (.app (.fn .sub) [.var V.q1, .var V.q0]) (.dur p)])
  | .cmd m p off => some (base p off ++ [sets V.s (if m then .div else .sub) (.var V.q1) (.var V.q0)])
  | .const m p off k => some (base p off ++ [sets V.q0 (if m then .div else .sub) (.var V.q1) (.num k)])
  | .bwdArg p off a => (a.tree cmdRefs).map fun t => base p off ++ [.asg V.s t]
where
  base (p off : Int) : List Tree :=
    [timed V.t0 V.t2 .sub p, timed V.t1 V.t3 .sub p, timed V.s0 V.t2 .sub off, timed V.s1 V.t3 .sub p]

/-- Template arguments: variables, the last two of them a time interval. -/
def argsOf (n : Nat) : List Tree :=
  if n < 2 then (List.range n).map .var
  else (List.range (n - 2)).map .var ++ [.app .ti [.var (n - 2), .var (n - 1)]]

/-- The model that is meant, of the objects `lhs` and `rhs` and with the group `out`. -/
def meant (n lhs rhs out : Nat) (fwd bwd : List Tree) : Tree :=
  .app .mdl [.app .set (argsOf n), .app .set [.ref lhs, .ref rhs], .app .set fwd, .app .set bwd, .app .set [.ref out],
    .num 0, .num 1, .num 1, .num 1, .num 1]

/-- The variables meant for the premise: those of the template if there is one. -/
def premiseOf (n : Nat) (V : Vars) : Vars := if n = 0 then V else { V with q0 := 0, t0 := 1, t1 := 2 }

/-- C177 of one model. -/
def C177At (n : Nat) (V : Vars) (b : Builder) (lhs rhs out : Nat) (cmdRefs : List Nat) : Prop :=
  ∀ bwd, bwdOf (premiseOf n V) cmdRefs b = some bwd →
    read (build n V b) [lhs, rhs, out] 10 0 = some (meant n lhs rhs out (fwdOf (premiseOf n V) b) bwd)

/-- Models of commands with a particular argument have a template. -/
def Asked (n : Nat) : Builder → Prop
  | .bwdArg .. => n ≠ 0
  | _ => True

/-- C177: all models are what is meant. -/
def C177_full : Prop :=
  ∀ (n : Nat) (V : Vars) (b : Builder) (lhs rhs out : Nat) (cmdRefs : List Nat), Asked n b → C177At n V b lhs rhs out cmdRefs

/-- The words of a structure that stand for themselves. -/
def Plain : Cell → Prop
  | .vl _ | .num _ | .other _ => True
  | _ => False

/-- What goes well: the constant forms only if both sides have the same times, and particular arguments only if they are numbers or
objects of numbers. -/
def Sound (V : Vars) : Builder → Prop
  | .const .. => V.s0 = V.t2 ∧ V.s1 = V.t3
  | .bwdArg _ _ (.word _) => False
  | .bwdArg _ _ (.obj _ xs) => ∀ x ∈ xs, Plain x
  | _ => True

end Verif.Lay
