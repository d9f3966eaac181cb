import Verif.Screen.Model
/-!
# The test environment

`TestMem` (AERA/test_mem.h, AERA/test_mem.cpp): a ball whose velocity programs set, a cart on which they put a force,
and a hand they move up and down between ten places; positions and velocities are injected at every tick.

Simplified: the ten places `y0` to `y9` are distinct objects and known by their numbers; the position of the hand is 0
until the first command (it is a null pointer in test_mem.cpp:113 and not reported before); the arithmetic of positions
is a parameter; the thread that calls `on_time_tick`, the file `cart.out` and the warnings are left out.
-/
namespace Verif.TestWorld
open Verif.Atom Verif.Observe
open Verif.Screen (Answer at_ function)

/-- The opcodes looked up in `load` (test_mem.cpp:137-141). -/
structure Ops where
  ready : BitVec 16
  setVelocity : BitVec 16
  setForce : BitVec 16
  plus : BitVec 16
  minus : BitVec 16
  cmd : BitVec 16
  deriving DecidableEq, Repr

/-- The attributes looked up in `load` (test_mem.cpp:144-149). -/
inductive Attr
  | position | positionY | velocityY | forceY | thetaY | omegaY
  deriving DecidableEq, Repr

/-- What does not change: opcodes, which attributes were found, whether all of `y0` to `y9` were, sampling period, time
tolerance and time reference in microseconds. -/
structure Cfg where
  ops : Ops
  has : Attr → Bool
  places : Bool
  period : Int
  tol : Int
  ref : Int

/-- `next_position_y_`, `next_velocity_y_`, `next_theta_y_`, `next_omega_y_`. -/
structure Cart where
  position : BitVec 32
  velocity : BitVec 32
  theta : BitVec 32
  omega : BitVec 32
  deriving DecidableEq, Repr

/-- The arithmetic of test_mem.cpp:416 and :433-451. -/
structure Dyn where
  ball : BitVec 32 → BitVec 32 → Int → BitVec 32
  cart : Cart → BitVec 32 → Cart

/-- `TestMem` (test_mem.h:141-174). -/
structure World where
  velocity : BitVec 32
  position : BitVec 32
  force : BitVec 32
  cart : Cart
  ball : Option Nat := none
  cartObj : Option Nat := none
  hand : Option Nat := none
  place : Nat := 0
  next : Option Nat := none
  last : Int := 0
  lastCommand : Int := 0
  babble : Int := 0
  deriving DecidableEq, Repr

/-- The text "ball". -/
def ballText : List (BitVec 8) := [0x62, 0x61, 0x6C, 0x6C]
/-- The text "cart-pole". -/
def cartText : List (BitVec 8) := [0x63, 0x61, 0x72, 0x74, 0x2D, 0x70, 0x6F, 0x6C, 0x65]

/-- test_mem.cpp:169-170, 199-200: the object of a `ready` command, if it is there. -/
def readyObject (o : Obj) : Option (Option Nat) :=
  let a := (asIndex (at_ o 2)).toNat
  if o.code.length ≥ 3 && getDescriptor (at_ o (a + 2)) == 0x85 then o.refs[(asIndex (at_ o (a + 2))).toNat]?
  else none

/-- test_mem.cpp:162-238: `ready`. -/
def ready (c : Cfg) (w : World) (o : Obj) : Option (Answer × World) :=
  let a := (asIndex (at_ o 2)).toNat
  let t := (asIndex (at_ o (a + 1))).toNat
  if o.code.length ≥ 2 && getDescriptor (at_ o (a + 1)) == 0x84 && getDescriptor (at_ o t) == 0xC6 then
    (Words.getString (o.code.drop t)).map fun s =>
      if s = ballText then
        match readyObject o with
        | none => (.null, w)
        | some obj =>
          if !(c.has .velocityY && c.has .positionY) then (.null, w)
          else if w.ball.isNone then (.same, { w with ball := obj })
          else if w.ball ≠ obj then (.null, w)
          else (.same, w)
      else if s = cartText then
        match readyObject o with
        | none => (.null, w)
        | some obj =>
          if !(c.has .velocityY && c.has .positionY && c.has .forceY && c.has .omegaY && c.has .thetaY) then (.null, w)
          else if w.cartObj.isNone then (.same, { w with cartObj := obj })
          else if w.cartObj ≠ obj then (.null, w)
          else (.same, w)
      else (.null, w)
  else some (.null, w)

/-- `command->get_reference(command->code(args_set_index + 1).asIndex())`; undefined if there is no such reference. -/
def object (o : Obj) : Option (Option Nat) := o.refs[(asIndex (at_ o ((asIndex (at_ o 2)).toNat + 1))).toNat]?

/-- `command->code(args_set_index + 2).asFloat()`. -/
def argument (o : Obj) : BitVec 32 := asFloat (at_ o ((asIndex (at_ o 2)).toNat + 2))

/-- test_mem.cpp:239-270: `set_velocity_y`. -/
def setVelocity (c : Cfg) (w : World) (now : Int) (o : Obj) : Option (Answer × World) :=
  if !(c.has .velocityY && c.has .positionY) then some (.null, w)
  else
    (object o).map fun obj =>
      if w.ball.isNone then (.same, { w with lastCommand := now, ball := obj, velocity := argument o })
      else if w.ball ≠ obj then (.null, { w with lastCommand := now })
      else (.same, { w with lastCommand := now, velocity := argument o })

/-- `max_force` (test_mem.cpp:120): 20. -/
def maxForce : BitVec 32 := 0x41A00000
/-- `-max_force`. -/
def minForce : BitVec 32 := 0xC1A00000

/-- `l < r` on floats. -/
def less (l r : BitVec 32) : Bool :=
  if Match.isNaN l || Match.isNaN r then false else decide (Match.value l < Match.value r)

/-- test_mem.cpp:323-334: the command that was executed. -/
def forced (c : Cfg) (obj : Option Nat) (f : BitVec 32) : Obj :=
  ((((((((⟨[], []⟩ : Obj).put 0 (Atom.object c.ops.cmd 3)).put 1 (deviceFunction c.ops.setForce)).put 2
    (iPointer 4)).put 3 one).put 4 (Atom.set 2)).put 5 (rPointer 0)).put 6 (float f)).setRef 0 obj

/-- test_mem.cpp:310-341: the force is set, within its limits. -/
def putForce (c : Cfg) (w : World) (f : BitVec 32) : Answer × World :=
  if less maxForce f then (.other (forced c w.cartObj maxForce), { w with force := maxForce })
  else if less f minForce then (.other (forced c w.cartObj minForce), { w with force := minForce })
  else (.same, { w with force := f })

/-- test_mem.cpp:271-343: `set_force_y`. -/
def setForce (c : Cfg) (w : World) (now : Int) (o : Obj) : Option (Answer × World) :=
  if !(c.has .velocityY && c.has .positionY && c.has .omegaY && c.has .thetaY && c.has .forceY) then some (.null, w)
  else
    (object o).map fun obj =>
      if w.cartObj.isNone then putForce c { w with lastCommand := now, cartObj := obj } (argument o)
      else if w.cartObj ≠ obj then (.null, { w with lastCommand := now })
      else putForce c { w with lastCommand := now } (argument o)

/-- test_mem.cpp:376-397: the next place. -/
def schedule (c : Cfg) (w : World) (now : Int) (f : BitVec 16) : Answer × World :=
  if w.next.isSome then (.null, w)
  else if f = c.ops.plus then
    (.same, { w with lastCommand := now, next := if w.place ≤ 8 then some (w.place + 1) else none })
  else if f = c.ops.minus then
    (.same, { w with lastCommand := now, next := if 1 ≤ w.place ∧ w.place ≤ 9 then some (w.place - 1) else none })
  else (.same, { w with lastCommand := now })

/-- test_mem.cpp:344-398: `move_y_plus` and `move_y_minus`. -/
def move (c : Cfg) (w : World) (now : Int) (o : Obj) : Option (Answer × World) :=
  if !(c.has .position && c.places) then some (.null, w)
  else
    (object o).map fun obj =>
      if w.hand.isNone then schedule c { w with hand := obj, place := 0 } now (function o)
      else if w.hand ≠ obj then (.null, w)
      else schedule c w now (function o)

/-- test_mem.cpp:159-401 `eject` at time `now`; `none` is undefined behaviour. -/
def eject (c : Cfg) (w : World) (now : Int) (o : Obj) : Option (Answer × World) :=
  if function o = c.ops.ready then ready c w o
  else if function o = c.ops.setVelocity then setVelocity c w now o
  else if function o = c.ops.setForce then setForce c w now o
  else if function o = c.ops.plus || function o = c.ops.minus then move c w now o
  else some (.null, w)

/-- What is injected at a tick: the value of an attribute (a number or a place) over a time interval, or the goal to
execute a command. -/
inductive Out
  | number (obj : Nat) (a : Attr) (x : Word) (after before : Int) (sync : Sync)
  | place (obj : Nat) (p : Nat) (after before : Int)
  | goal (obj : Nat) (op : BitVec 16) (cmdAfter cmdBefore after before : Int)
  deriving DecidableEq, Repr

/-- test_mem.cpp:409-427. -/
def tickBall (c : Cfg) (D : Dyn) (w : World) (now : Int) : List Out × World :=
  match w.ball with
  | none => ([], w)
  | some b =>
    let p := if w.last = 0 then w.position else D.ball w.position w.velocity (now - w.last)
    ([.number b .velocityY (float w.velocity) now (now + c.period) .hold,
      .number b .positionY (float p) now (now + c.period) .periodic], { w with position := p, last := now })

/-- test_mem.cpp:428-490. -/
def tickCart (c : Cfg) (D : Dyn) (w : World) (now : Int) : List Out × World :=
  match w.cartObj with
  | none => ([], w)
  | some b =>
    let k := if w.last = 0 then w.cart else D.cart w.cart w.force
    ([.number b .forceY (float w.force) now (now + c.period) .periodic,
      .number b .velocityY (float k.velocity) now (now + c.period) .periodic,
      .number b .positionY (float k.position) now (now + c.period) .periodic,
      .number b .thetaY (float k.theta) now (now + c.period) .periodic,
      .number b .omegaY (float k.omega) now (now + c.period) .periodic], { w with cart := k, last := now })

/-- test_mem.cpp:493-500: the hand goes to its next place if enough time has passed since the last command. -/
def settle (c : Cfg) (w : World) (now : Int) : World :=
  match w.next with
  | none => w
  | some n => if now ≥ w.lastCommand + (c.period * 4).tdiv 10 then { w with place := n, next := none } else w

/-- test_mem.cpp:510-521: the state of babbling. -/
def nextBabble (w : World) : Int :=
  if w.place = 0 then 1
  else if w.place = 9 then 10
  else if w.babble + 1 ≥ 18 then 0 else w.babble + 1

/-- test_mem.cpp:491-545. -/
def tickHand (c : Cfg) (w : World) (now : Int) : List Out × World :=
  match w.hand with
  | none => ([], w)
  | some h =>
    let w : World := { settle c w now with last := now }
    if now - c.ref < 3700000 then
      let b := nextBabble w
      let op := if 0 ≤ b ∧ b ≤ 8 then c.ops.plus else c.ops.minus
      let after := now + c.period + 2 * c.tol
      ([.place h w.place now (now + c.period), .goal h op after (now + 2 * c.period) after (now + c.period)],
        { w with babble := b })
    else ([.place h w.place now (now + c.period)], w)

/-- test_mem.cpp:403-546 `on_time_tick` at time `now`. -/
def tick (c : Cfg) (D : Dyn) (w : World) (now : Int) : List Out × World :=
  if now ≤ w.last + (c.period * 8).tdiv 10 then ([], w)
  else
    let r1 := tickBall c D w now
    let r2 := tickCart c D r1.2 now
    let r3 := tickHand c r2.2 now
    (r1.1 ++ r2.1 ++ r3.1, r3.2)

/-- A call of the device at a time. -/
inductive Event
  | eject (now : Int) (o : Obj)
  | tick (now : Int)
  deriving DecidableEq, Repr

/-- What a call shows: the answer to a command or what was injected. -/
inductive Shown
  | answer (now : Int) (o : Obj) (a : Answer)
  | injected (now : Int) (l : List Out)
  deriving DecidableEq, Repr

/-- A history of calls, with all that is shown; `none` if one of them is undefined. -/
def run (c : Cfg) (D : Dyn) (w : World) : List Event → Option (List Shown × World)
  | [] => some ([], w)
  | .eject now o :: es => (eject c w now o).bind fun r =>
      (run c D r.2 es).map fun q => (.answer now o r.1 :: q.1, q.2)
  | .tick now :: es =>
      (run c D (tick c D w now).2 es).map fun q => (.injected now (tick c D w now).1 :: q.1, q.2)

/-- test_mem.cpp:93-118: the constructor; the initial numbers are `velocity_y_ = 0.0001` and so on. -/
def initial : World :=
  ⟨0x38D1B717, 0, 0x3DCCCCCD, ⟨0x3F800000, 0x3DCCCCCD, 0x3F800000, 0x3DCCCCCD⟩, none, none, none, 0, none, 0, 0, 0⟩

end Verif.TestWorld
