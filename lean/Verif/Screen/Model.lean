import Verif.Screen.Table
import Verif.Observe.Model
/-!
# The device with a video screen

`VideoScreen` (AERA/IODevices/video_screen/video_screen.h, video_screen.cpp) and `VideoScreenIoDevice`
(video_screen_io_device.cpp): a screen of 64 × 64 points with a paddle and a ball, an eye that programs move by
commands, and the pattern of the nine points around it, injected at every tick.

Simplified: the answer to a command says whether it is the command itself; that reading the code of a short command
lengthens it (resized_vector.h:143-148) is not shown. `lastCommandTime_` is not used by the device and left out.
-/
namespace Verif.Screen
open Verif.Atom Verif.Observe

/-! ## Numbers -/

/-- `(int)f`: undefined for what is not a number or does not fit. -/
def toInt (f : BitVec 32) : Option Int :=
  if Match.isNaN f || Match.isInf f then none
  else
    let n := (Match.value f).tdiv (2 ^ 149)
    if -2147483648 ≤ n ∧ n < 2147483648 then some n else none

/-- `(float32)n` for an `int` of less than 24 bits: `Atom::Float(actual_delta_x)`
(video_screen_io_device.cpp:183-184). -/
def ofInt (n : Int) : BitVec 32 :=
  if n = 0 then 0
  else
    let a := n.natAbs
    let e := a.log2
    BitVec.ofNat 32 ((if n < 0 then 2147483648 else 0) + (127 + e) * 8388608 + (a * 2 ^ (23 - e) - 8388608))

/-- `a + b` on `int`: undefined if it overflows. -/
def addInt (a b : Int) : Option Int :=
  if -2147483648 ≤ a + b ∧ a + b < 2147483648 then some (a + b) else none

/-! ## The screen -/

/-- `VideoScreen` (video_screen.h:151-156): the lit points, the eye. -/
structure Screen where
  lit : Int → Int → Bool
  x : Int
  y : Int

/-- `new VideoScreen(64, 64)` (video_screen_io_device.cpp:91). -/
def width : Int := 64
/-- See `width`. -/
def height : Int := 64

/-- video_screen.h:114-119 `get_screen`. -/
def Screen.get (s : Screen) (x y : Int) : Bool :=
  if x < 0 || x ≥ width || y < 0 || y ≥ height then false else s.lit x y

/-- video_screen.h:127-132 `set_screen(x, y, true)`. -/
def Screen.light (s : Screen) (x y : Int) : Screen :=
  if x < 0 || x ≥ width || y < 0 || y ≥ height then s
  else { s with lit := fun a b => if a = x ∧ b = y then true else s.lit a b }

/-- video_screen.cpp:63-76 and video_screen.h:137-149: the screen once loaded. -/
def Screen.init : Screen :=
  ((((⟨fun _ _ => false, 3, 5⟩ : Screen).light 3 4).light 3 5).light 3 6).light 10 10

/-- video_screen.cpp:608-618 `move_eye`, with the actual displacement. -/
def Screen.move (s : Screen) (dx dy : Int) : Option (Screen × Int × Int) :=
  (addInt s.x dx).bind fun sx => (addInt s.y dy).map fun sy =>
    let nx := max 1 (min (width - 2) sx)
    let ny := max 1 (min (height - 2) sy)
    ({ s with x := nx, y := ny }, nx - s.x, ny - s.y)

/-- video_screen.cpp:623-633: the nine points seen. -/
def Screen.fovea (s : Screen) : List Bool :=
  [s.get (s.x - 1) (s.y + 1), s.get s.x (s.y + 1), s.get (s.x + 1) (s.y + 1),
   s.get (s.x - 1) s.y, s.get s.x s.y, s.get (s.x + 1) s.y,
   s.get (s.x - 1) (s.y - 1), s.get s.x (s.y - 1), s.get (s.x + 1) (s.y - 1)]

/-- video_screen.cpp:634-639: `index`, from the last point to the first. -/
def index (bs : List Bool) : Nat := bs.foldr (fun b n => n * 2 + b.toNat) 0

/-- video_screen.cpp:84-606: the table of patterns, `none` if one is missing. -/
def patterns (find : String → Option Nat) : Option (List Nat) := names.mapM find

/-! ## The device -/

/-- The opcodes looked up in `load`. -/
structure Ops where
  ready : BitVec 16
  move : BitVec 16
  cmd : BitVec 16
  deriving DecidableEq, Repr

/-- `VideoScreenIoDevice`. -/
structure Dev where
  ops : Ops
  screen : Screen
  table : List Nat
  prop : Option Nat
  eye : Option Nat
  last : Int
  period : Int

/-- video_screen_io_device.cpp:62-101: constructor and `load`. `find` is `find_object`. -/
def load (ops : Ops) (find : String → Option Nat) (period : Int) : Option Dev :=
  (patterns find).map fun t => ⟨ops, Screen.init, t, find "fovea_pattern", none, 0, period⟩

/-- What `eject` returns: `NULL`, the command it was given, another one. -/
inductive Answer
  | null
  | same
  | other (o : Obj)
  deriving DecidableEq, Repr

/-- `command->code(i)`. -/
def at_ (o : Obj) (i : Nat) : Word := (o.code[i]?).getD Atom.default

/-- video_screen_io_device.cpp:104. -/
def function (o : Obj) : BitVec 16 := ((at_ o 1 >>> 8) &&& 0xFF).setWidth 16

/-- The text "pong". -/
def pong : List (BitVec 8) := [0x70, 0x6F, 0x6E, 0x67]

/-- video_screen_io_device.cpp:106-141: `ready`. -/
def ready (d : Dev) (o : Obj) : Option (Answer × Dev) :=
  let a := (asIndex (at_ o 2)).toNat
  let t := (asIndex (at_ o (a + 1))).toNat
  if o.code.length ≥ 2 && getDescriptor (at_ o (a + 1)) == 0x84 && getDescriptor (at_ o t) == 0xC6 then
    (Words.getString (o.code.drop t)).bind fun s =>
      if s = pong then
        let r := (asIndex (at_ o (a + 2))).toNat
        if !(o.code.length ≥ 3 && getDescriptor (at_ o (a + 2)) == 0x85 && decide (r < o.refs.length)) then
          some (.null, d)
        else if d.prop.isNone then some (.null, d)
        else
          (o.refs[r]?).map fun obj =>
            if d.eye.isNone then (.same, { d with eye := obj })
            else if d.eye ≠ obj then (.null, d) else (.same, d)
      else some (.null, d)
  else some (.null, d)

/-- video_screen_io_device.cpp:171-186: the command that was executed. -/
def executed (d : Dev) (dx dy : Int) : Obj :=
  ((((((((((⟨[], []⟩ : Obj).put 0 (Atom.object d.ops.cmd 3)).put 1 (deviceFunction d.ops.move)).put 2
    (iPointer 4)).put 3 one).put 4 (Atom.set 3)).put 5 (rPointer 0)).put 6 (float (ofInt dx))).put 7
    (float (ofInt dy))).setRef 0 d.eye)

/-- video_screen_io_device.cpp:142-187: `move`. -/
def moveEye (d : Dev) (o : Obj) : Option (Answer × Dev) :=
  let a := (asIndex (at_ o 2)).toNat
  if (getAtomCount (at_ o a)).toNat < 3 then some (.null, d)
  else
    (o.refs[(asIndex (at_ o (a + 1))).toNat]?).bind fun obj =>
      let go : Dev → Option (Answer × Dev) := fun d =>
        (toInt (asFloat (at_ o (a + 2)))).bind fun dx => (toInt (asFloat (at_ o (a + 3)))).bind fun dy =>
          (d.screen.move dx dy).map fun (s, ax, ay) =>
            (if ax = dx ∧ ay = dy then .same else .other (executed d ax ay), { d with screen := s })
      if d.eye.isNone then go { d with eye := obj }
      else if d.eye ≠ obj then some (.null, d)
      else go d

/-- video_screen_io_device.cpp:103-191 `eject`; `none` is undefined behaviour. -/
def eject (d : Dev) (o : Obj) : Option (Answer × Dev) :=
  if function o = d.ops.ready then ready d o
  else if function o = d.ops.move then moveEye d o
  else some (.null, d)

/-- An attribute's value handed to `inject_marker_value_from_io_device`. -/
structure Seen where
  object : Nat
  prop : Option Nat
  value : Option Nat
  after : Int
  before : Int
  deriving DecidableEq, Repr

/-- video_screen_io_device.cpp:193-217 `on_time_tick` at time `now`. -/
def tick (d : Dev) (now : Int) : Option Seen × Dev :=
  if now ≤ d.last + (d.period * 8).tdiv 10 then (none, d)
  else
    match d.eye with
    | none => (none, d)
    | some e =>
      (some ⟨e, d.prop, d.table[index d.screen.fovea]?, now, now + d.period⟩, { d with last := now })

/-- A call of the device. -/
inductive Event
  | eject (o : Obj)
  | tick (now : Int)
  deriving DecidableEq, Repr

/-- One call; `none` if it is undefined. -/
def step (d : Dev) : Event → Option Dev
  | .eject o => (eject d o).map (·.2)
  | .tick t => some (tick d t).2

/-- A history of calls. -/
def run (d : Dev) : List Event → Option Dev
  | [] => some d
  | e :: es => (step d e).bind fun d => run d es

end Verif.Screen
