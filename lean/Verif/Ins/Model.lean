import Verif.Ctx.Model
/-!
# Making instances of programs

Transcription of the operator `ins` (`IPGMContext::Ins`, `/repo/r_exec/context.cpp:651-733`), with pointers followed,
skeletons matched and structures copied as in `Verif.Ctx`.  The object is made; that it may be replaced by an
equivalent one (`check_existence`) and that it is added to the productions is not described.

`none` is a read outside of code or a recursion beyond the bound; `some none` that the operator fails and its
value is nil.
-/
namespace Verif.Ins
open Verif.Atom hiding Val
open Verif.Ctx

/-- The opcodes of the classes. -/
structure Ops where
  pgm : BitVec 16
  anti : BitVec 16
  ipgm : BitVec 16

/-- The loop over the arguments (context.cpp:682-691): `args` is the set of arguments, `pats` that of the patterns. -/
def fits (m : Mem) (N : Nat) (args pats : Ctx) : (i n : Nat) → Option Bool :=
  every fun i => (deref m N (args.child i)).bind fun x => (deref m N (pats.child i)).bind fun p => (deref m N (p.child 1)).bind fun s => mat m N s x

/-- The head of the instance (context.cpp:693-704); IPGM_ARITY is 7, PGM_INPUTS is 2. -/
def head (m : Mem) (O : Ops) (P : Nat) (op : BitVec 16) : Option Word :=
  if op = O.anti then some (instantiatedAntiProgram O.ipgm 7)
  else ((m.objs P).code 2).bind fun i => ((m.objs P).code (asIndex i).toNat).map fun h =>
    if getAtomCount h = 0 then instantiatedInputLessProgram O.ipgm 7 else instantiatedProgram O.ipgm 7

/-- The instance before the arguments are copied (context.cpp:706-710): code 1 refers to the program, code 2 points to
where the arguments will be. -/
def start (h : Word) (P : Nat) : Dest := { ((⟨fun _ => none, []⟩ : Dest).put 0 h).put 1 (rPointer 0) with refs := [P] }.put 2 (iPointer 8)

/-- What is written after the arguments (context.cpp:713-724). -/
def finish (d : Dest) (e : Nat) (run t0 t1 t2 res nfr : Word) : Dest :=
  ((((((((d.put 3 run).put 4 (iPointer e)).put e t0).put (e + 1) t1).put (e + 2) t2).put 5 res).put 6 nfr).put 7 (float 0x3F800000#32))

/-- Making the instance (context.cpp:693-726). -/
def make (m : Mem) (O : Ops) (N P : Nat) (op : BitVec 16) (args run tsc res nfr : Ctx) : Option Dest :=
  (head m O P op).bind fun h => (copyStruct m (copyMember m N) args 8 (start h P)).bind fun r =>
    (m.word run).bind fun w3 => (m.word tsc).bind fun t0 => (m.word (tsc.child 1)).bind fun t1 => (m.word (tsc.child 2)).bind fun t2 =>
      (m.word res).bind fun w5 => (m.word nfr).map fun w6 => finish r.1 r.2 w3 t0 t1 t2 w5 w6

/-- The tests (context.cpp:660-691), given what the operands stand for; PGM_TPL_ARGS is 1. -/
def apply (m : Mem) (O : Ops) (N P : Nat) (args run tsc res nfr : Ctx) : Option (Option Dest) :=
  ((m.objs P).code 0).bind fun h =>
    if asOpcode h ≠ O.pgm ∧ asOpcode h ≠ O.anti then some none
    else (m.word args).bind fun a =>
      if getDescriptor a ≠ 0xC1 then some none
      else ((m.objs P).code 1).bind fun t => ((m.objs P).code (asIndex t).toNat).bind fun s =>
        if getAtomCount s ≠ getAtomCount a then some none
        else (fits m N args ⟨.obj P, (asIndex t).toNat⟩ 1 (getAtomCount a).toNat).bind fun b =>
          if b then (make m O N P (asOpcode h) args run tsc res nfr).map some else some none

/-- `Ins` (context.cpp:651-733). -/
def ins (m : Mem) (O : Ops) (N : Nat) (c : Ctx) : Option (Option Dest) :=
  (deref m N (c.child 1)).bind fun p => (deref m N (c.child 2)).bind fun args => (deref m N (c.child 3)).bind fun run =>
    (deref m N (c.child 4)).bind fun tsc => (deref m N (c.child 5)).bind fun res => (deref m N (c.child 6)).bind fun nfr =>
      apply m O N (m.object p) args run tsc res nfr

end Verif.Ins
