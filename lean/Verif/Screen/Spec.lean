import Verif.Screen.Model
import Verif.Observe.Spec
/-!
# What programs expect of the screen device

C107 (the eye) and C108 (what it sees).
-/
namespace Verif.Screen
open Verif.Atom Verif.Observe

/-- The word `w` is the number `n`, in units of 2^-149. -/
def Num (w : Word) (n : Int) : Prop :=
  isFloat w = true ∧ Match.isNaN (asFloat w) = false ∧ Match.isInf (asFloat w) = false ∧ Match.value (asFloat w) = n

/-- The unit of `Num`. -/
def unit : Int := 2 ^ 149

/-- `o` is the command to move `eye` by the numbers at `X` and `Y`: `(cmd move [eye X Y] …)`. -/
def IsMove (ops : Ops) (o : Obj) (eye : Option Nat) (X Y : Word) : Prop :=
  o.code[1]? = some (deviceFunction ops.move) ∧
  ∃ w h, o.code[2]? = some w ∧ getDescriptor w = 0x84 ∧ o.code[(asIndex w).toNat]? = some h ∧
    getDescriptor h = 0xC1 ∧ (getAtomCount h).toNat = 3 ∧ RefersTo o.code o.refs ((asIndex w).toNat + 1) eye ∧
    o.code[(asIndex w).toNat + 2]? = some X ∧ o.code[(asIndex w).toNat + 3]? = some Y

/-- The command an answer says was executed. -/
def Answer.command (a : Answer) (o : Obj) : Option Obj :=
  match a with
  | .null => none
  | .same => some o
  | .other o' => some o'

/-- The nearest place for the eye, whose nine points must be on the screen. -/
def Nearest (want got : Int) : Prop :=
  1 ≤ got ∧ got ≤ 62 ∧ ∀ z, 1 ≤ z → z ≤ 62 → (got - want).natAbs ≤ (z - want).natAbs

/-- C107: whatever was done before, the eye and the eight points around it are on the screen; and if a program sends the
command to move it, it moves as far as the screen allows and the device answers with a command that tells by how much. -/
def C107_full : Prop :=
  ∀ (ops : Ops) (find : String → Option Nat) (period : Int) (d0 d : Dev) (es : List Event),
    ops.ready ≠ ops.move → load ops find period = some d0 → run d0 es = some d →
    (1 ≤ d.screen.x ∧ d.screen.x ≤ 62 ∧ 1 ≤ d.screen.y ∧ d.screen.y ≤ 62) ∧
    ∀ (o : Obj) (e : Nat) (X Y : Word) (nx ny : Int), (d.eye = none ∨ d.eye = some e) → IsMove ops o (some e) X Y →
      Num X nx → Num Y ny →
      ∃ a d' c X' Y', eject d o = some (a, d') ∧ a.command o = some c ∧ IsMove ops c (some e) X' Y' ∧
        Num X' ((d'.screen.x - d.screen.x) * unit) ∧ Num Y' ((d'.screen.y - d.screen.y) * unit) ∧
        (∀ k, nx = k * unit → Nearest (d.screen.x + k) d'.screen.x) ∧
        (∀ k, ny = k * unit → Nearest (d.screen.y + k) d'.screen.y)

/-- The points around the eye, from the left to the right and from the top down, with the digits by which they are
known. -/
def around : List (Nat × Int × Int) :=
  [(1, -1, 1), (2, 0, 1), (3, 1, 1), (4, -1, 0), (5, 0, 0), (6, 1, 0), (7, -1, -1), (8, 0, -1), (9, 1, -1)]

/-- The points lit by the paddle and the ball. -/
def Lit (x y : Int) : Prop := (x = 3 ∧ 4 ≤ y ∧ y ≤ 6) ∨ (x = 10 ∧ y = 10)

instance (x y : Int) : Decidable (Lit x y) := by unfold Lit; infer_instance

/-- The digits of the lit points around `x`, `y`. -/
def digits (x y : Int) : List Nat :=
  (around.filter fun p => decide (Lit (x + p.2.1) (y + p.2.2))).map (·.1)

/-- The name of a pattern: its digits, or 0 if nothing is lit. -/
def nameOf : List Nat → String
  | [] => "pattern0"
  | ds => "pattern" ++ String.join (ds.map toString)

/-- The ticks of a history at which something was injected, with what was injected. -/
def seen (d : Dev) : List Event → List Seen
  | [] => []
  | .eject o :: es => match eject d o with
    | none => []
    | some (_, d) => seen d es
  | .tick t :: es => (tick d t).1.toList ++ seen (tick d t).2 es

end Verif.Screen
