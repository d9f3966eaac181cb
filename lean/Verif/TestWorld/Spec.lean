import Verif.TestWorld.Model
import Verif.Screen.Spec
/-!
# What programs expect of the test environment

C104 (the answer to a command tells what was done), C105 (the hand goes where it is told to) and C106 (what is
injected).
-/
namespace Verif.TestWorld
open Verif.Atom Verif.Observe
open Verif.Screen (Answer)

/-- `o` is a command to execute function `op` on `obj`, with `X` as further argument if there is one:
`(cmd op [obj X] …)`. -/
def IsCmd (o : Obj) (op : BitVec 16) (obj : Nat) (X : Option Word) : Prop :=
  o.code[1]? = some (deviceFunction op) ∧
  ∃ w, o.code[2]? = some w ∧ RefersTo o.code o.refs ((asIndex w).toNat + 1) (some obj) ∧
    o.code[(asIndex w).toNat + 2]? = X

/-- All references of a command are there. -/
def NoNull (o : Obj) : Prop := ∀ r ∈ o.refs, r.isSome

/-- The commands of a history. -/
def commands (es : List Event) : List Obj :=
  es.filterMap fun e => match e with
    | .eject _ o => some o
    | .tick _ => none

/-- The function `op` was executed on `obj` with `X`: the ball has the velocity, the cart the force, the hand is about
to be moved up or down by one. -/
def Executed (c : Cfg) (w : World) (op : BitVec 16) (obj : Nat) (X : Option Word) : Prop :=
  (op = c.ops.setVelocity ∧ w.ball = some obj ∧ ∃ x, X = some x ∧ w.velocity = asFloat x) ∨
  (op = c.ops.setForce ∧ w.cartObj = some obj ∧ ∃ x, X = some x ∧ w.force = asFloat x) ∨
  (op = c.ops.plus ∧ w.hand = some obj ∧ w.next = some (w.place + 1)) ∨
  (op = c.ops.minus ∧ w.hand = some obj ∧ ∃ n, w.place = n + 1 ∧ w.next = some n)

/-- Nothing in the world was changed. -/
def Untouched (w w' : World) : Prop :=
  w'.ball = w.ball ∧ w'.cartObj = w.cartObj ∧ w'.hand = w.hand ∧ w'.velocity = w.velocity ∧ w'.force = w.force ∧
    w'.place = w.place ∧ w'.next = w.next

/-- C104: whatever was done before, the answer to a command is null and nothing was changed, or it is a command that was
executed. -/
def C104_full : Prop :=
  ∀ (c : Cfg) (D : Dyn) (es : List Event) (l : List Shown) (w : World), (∀ o ∈ commands es, NoNull o) →
    run c D initial es = some (l, w) →
    ∀ (now : Int) (o : Obj) (op : BitVec 16) (obj : Nat) (X : Option Word), op ≠ c.ops.ready → IsCmd o op obj X →
      (op = c.ops.setVelocity ∨ op = c.ops.setForce → X.isSome) →
      ∃ a w', eject c w now o = some (a, w') ∧ (a.command o = none → Untouched w w') ∧
        ∀ cmd, a.command o = some cmd → ∃ op' obj' X', IsCmd cmd op' obj' X' ∧ Executed c w' op' obj' X'

/-- The steps of the hand that were accepted: up or down. -/
def step (c : Cfg) : Shown → Int
  | .answer _ o a =>
    if a = .null then 0
    else if o.code[1]? = some (deviceFunction c.ops.plus) then 1
    else if o.code[1]? = some (deviceFunction c.ops.minus) then -1
    else 0
  | .injected _ _ => 0

/-- The steps up less the steps down. -/
def count (c : Cfg) (l : List Shown) : Int := (l.map (step c)).sum

/-- The places reported at a tick. -/
def placeOf : Out → Option Nat
  | .place _ p _ _ => some p
  | _ => none

/-- The places reported, in order. -/
def reported (l : List Shown) : List Nat :=
  l.flatMap fun s => match s with
    | .injected _ out => out.filterMap placeOf
    | .answer _ _ _ => []

/-- The opcodes of the functions are different and have eight bits. -/
def Ops.Good (p : Ops) : Prop :=
  (p.ready.toNat < 256 ∧ p.setVelocity.toNat < 256 ∧ p.setForce.toNat < 256 ∧ p.plus.toNat < 256 ∧
    p.minus.toNat < 256) ∧
  p.plus ≠ p.minus ∧ p.plus ≠ p.ready ∧ p.plus ≠ p.setVelocity ∧ p.plus ≠ p.setForce ∧
  p.minus ≠ p.ready ∧ p.minus ≠ p.setVelocity ∧ p.minus ≠ p.setForce ∧ p.setVelocity ≠ p.ready ∧
  p.setForce ≠ p.ready ∧ p.setForce ≠ p.setVelocity

/-- The function of a command has an opcode of eight bits. -/
def Small (o : Obj) : Prop := ∃ op : BitVec 16, op.toNat < 256 ∧ o.code[1]? = some (deviceFunction op)

/-- Numbers that follow each other without a leap. -/
def Walk : List Nat → Prop
  | a :: b :: l => a ≤ b + 1 ∧ b ≤ a + 1 ∧ Walk (b :: l)
  | _ => True

/-- C105: after any history, the hand is or is about to be where the accepted commands have put it, and the places
reported follow each other without a leap, beginning with `y0`. -/
def C105_full : Prop :=
  ∀ (c : Cfg) (D : Dyn) (es : List Event) (l : List Shown) (w : World), c.ops.Good →
    (∀ o ∈ commands es, NoNull o ∧ Small o) → run c D initial es = some (l, w) →
    ((w.next.getD w.place : Nat) : Int) = count c l ∧
    Walk (0 :: reported l)

/-- The time interval of what is injected. -/
def Out.after : Out → Int
  | .number _ _ _ a _ _ => a
  | .place _ _ a _ => a
  | .goal _ _ _ _ a _ => a

/-- See `Out.after`. -/
def Out.before : Out → Int
  | .number _ _ _ _ b _ => b
  | .place _ _ _ b => b
  | .goal _ _ _ _ _ b => b

/-- C106: after any history, what is injected at a tick holds for a time interval that does not end before it begins. -/
def C106_full : Prop :=
  ∀ (c : Cfg) (D : Dyn) (es : List Event) (l : List Shown) (w : World) (now : Int), 0 < c.period → 0 ≤ c.tol →
    2 * c.tol ≤ c.period → run c D initial es = some (l, w) →
    ∀ out ∈ (tick c D w now).1, out.after ≤ out.before

/-- The velocity last set by a command that was accepted. -/
def velocitySet (c : Cfg) (l : List Shown) : Option (BitVec 32) :=
  l.foldl (fun v s => match s with
    | .answer _ o a =>
      if a ≠ .null ∧ o.code[1]? = some (deviceFunction c.ops.setVelocity) then some (argument o) else v
    | .injected _ _ => v) none

/-- The force last set by a command that was accepted, within the limits of ±20. -/
def forceSet (c : Cfg) (l : List Shown) : Option (BitVec 32) :=
  l.foldl (fun v s => match s with
    | .answer _ o a =>
      if a ≠ .null ∧ o.code[1]? = some (deviceFunction c.ops.setForce) then
        some (if less 0x41A00000 (argument o) then 0x41A00000 else if less (argument o) 0xC1A00000 then 0xC1A00000
          else argument o)
      else v
    | .injected _ _ => v) none

/-- The time of the last tick at which something was injected, 0 if there was none. -/
def lastShown (l : List Shown) : Int :=
  l.foldl (fun t s => match s with
    | .injected now out => if out = [] then t else now
    | .answer _ _ _ => t) 0

/-- What is due at a tick at time `now`: all the values, for the objects that were told. -/
def Due (c : Cfg) (w : World) (now : Int) (out : List Out) (place : Nat) : Prop :=
  (∀ b, w.ball = some b →
    .number b .velocityY (float w.velocity) now (now + c.period) .hold ∈ out ∧
    ∃ x, .number b .positionY x now (now + c.period) .periodic ∈ out) ∧
  (∀ b, w.cartObj = some b →
    .number b .forceY (float w.force) now (now + c.period) .periodic ∈ out ∧
    ∀ a, a = .velocityY ∨ a = .positionY ∨ a = .thetaY ∨ a = .omegaY →
      ∃ x, .number b a x now (now + c.period) .periodic ∈ out) ∧
  (∀ h, w.hand = some h → .place h place now (now + c.period) ∈ out ∧
    (now - c.ref < 3700000 → ∃ op ca cb s e, .goal h op ca cb s e ∈ out)) ∧
  (w.ball = none → ∀ b x s e, .number b .velocityY x s e .hold ∉ out) ∧
  (w.cartObj = none → ∀ b x s e, .number b .forceY x s e .periodic ∉ out) ∧
  (w.hand = none → ∀ h p s e, .place h p s e ∉ out)

end Verif.TestWorld
