import Verif.Ctx.Spec
import Verif.Ins.Model
/-!
# What is wanted of instances of programs (C161)
-/
namespace Verif.Ins
open Verif.Atom hiding Val
open Verif.Ctx

/-- The member at a position. -/
def nth : Val → Nat → Val
  | .cons v _, 0 => v
  | .cons _ vs, i + 1 => nth vs i
  | v, _ => v

/-- What is asked for: the program, an object with its head and members; the set of arguments; whether the instance is run,
the time scope, the resilience, whether reductions are notified. -/
structure Asked where
  P : Nat
  hp : Word
  ks : Val
  ha : Word
  as : Val
  run : Ctx × Word
  tsc : Word × List Word
  res : Ctx × Word
  nfr : Ctx × Word

def simple (w : Word) : Prop := kind w = .atom ∨ kind w = .wild

/-- The operands stand for what is asked. -/
structure Operands (m : Mem) (c : Ctx) (q : Asked) : Prop where
  pgm : Den m false (c.child 1) (.node (some q.P) q.hp q.ks)
  args : Den m false (c.child 2) (.node none q.ha q.as)
  set : q.ha.toNat / 2 ^ 24 = 0xC1
  run : Den m false (c.child 3) (.atom q.run.1 q.run.2)
  tsc : Den m false (c.child 4) (.raw q.tsc.1 q.tsc.2)
  time : q.tsc.2.length = 2
  res : Den m false (c.child 5) (.atom q.res.1 q.res.2)
  nfr : Den m false (c.child 6) (.atom q.nfr.1 q.nfr.2)

/-- The program: where its patterns and its inputs are, how many; the skeletons of the patterns. -/
structure Template where
  s : Nat
  n : Nat
  u : Nat
  inputs : Nat
  skel : Nat → Val

structure Written (m : Mem) (P : Nat) (t : Template) : Prop where
  tpl : m.at ⟨.obj P, 1⟩ = some (.iptr t.s)
  count : m.at ⟨.obj P, t.s⟩ = some (.struct t.n)
  pats : ∀ i, i < t.n → ∃ p, Go m ⟨.obj P, t.s + 1 + i⟩ [] p ∧ Den m false (p.child 1) (t.skel i)
  ins : m.at ⟨.obj P, 2⟩ = some (.iptr t.u)
  inputs : m.at ⟨.obj P, t.u⟩ = some (.struct t.inputs)

/-- The arguments fit the template. -/
def Fit (t : Template) (as : Val) : Prop := as.length = t.n ∧ ∀ i, i < t.n → inst (t.skel i) (nth as i) = true ∧ consistent (t.skel i) (nth as i)

/-- The opcode of a head. -/
def opcode (w : Word) : Nat := w.toNat / 256 % 4096

/-- The kind of the instance. -/
def descriptor (O : Ops) (t : Template) (hp : Word) : Nat :=
  if opcode hp = O.anti.toNat then 0xCC else if t.inputs = 0 then 0xCB else 0xC9

/-- The members of the instance: the last is the threshold 1. -/
def Asked.members (q : Asked) : Val :=
  .cons (.node (some q.P) q.hp q.ks) (.cons (.node none q.ha q.as) (.cons (.atom q.run.1 q.run.2) (.cons (.raw q.tsc.1 q.tsc.2)
    (.cons (.atom q.res.1 q.res.2) (.cons (.atom q.nfr.1 q.nfr.2) (.cons (.atom ⟨.val, 0⟩ 0x1FC00000#32) .nil))))))

/-- The instance `d` is what is asked. -/
def Right (m : Mem) (O : Ops) (t : Template) (q : Asked) (d : Obj) : Prop :=
  ∃ h : Word, h.toNat / 2 ^ 24 = descriptor O t q.hp ∧ opcode h = O.ipgm.toNat % 4096 ∧
    ∀ o, fresh m o → ∃ ls, Den (m.new o d) false ⟨.obj o, 0⟩ (.node (some o) h ls) ∧ alike q.members ls

/-- C161: an instance is made if and only if the object is a program the template of which the arguments fit; it has the
members asked for. -/
def C161_full : Prop :=
  ∀ m O c q t, O.pgm ≠ O.anti → Operands m c q → Written m q.P t → ∃ k, ∀ N ≥ k, ∃ r, ins m O N c = some r ∧
    (r.isSome = true ↔ (opcode q.hp = O.pgm.toNat ∨ opcode q.hp = O.anti.toNat) ∧ Fit t q.as) ∧ ∀ d, r = some d → Right m O t q d

end Verif.Ins
