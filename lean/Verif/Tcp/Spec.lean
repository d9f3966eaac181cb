import Verif.Tcp.Model
import Verif.Screen.Spec
import Batteries.Data.List.Basic
/-!
# What the environment and the programs expect of the network device

C149 (data received), C150 (commands) and C151 (the order of messages).
-/
namespace Verif.Tcp
open Verif.Atom Verif.Observe Verif.Screen

/-! ## What the environment has said -/

/-- The messages of setup handled so far: the first, and those since. -/
def setups (s0 : Setup) (w : World) : List Setup :=
  s0 :: w.handled.filterMap fun p => match p.2 with
    | .setup s => some s
    | _ => none

/-- All names and identifiers. -/
def Setup.all (s : Setup) : List (String × Int) := s.entities ++ s.commands ++ s.objects

/-- Names and identifiers belong to each other one to one; no name is empty. -/
def Clear (ss : List Setup) : Prop :=
  (∀ s ∈ ss, ∀ s' ∈ ss, ∀ p ∈ s.all, ∀ q ∈ s'.all, p.1 = q.1 ↔ p.2 = q.2) ∧ ∀ s ∈ ss, ∀ p ∈ s.all, p.1 ≠ ""

/-- The name that belongs to an identifier. -/
def named (l : List (String × Int)) (i : Int) : Option String := (l.find? fun p => decide (p.2 = i)).map (·.1)

/-- The entity that belongs to an identifier. -/
def entityOf (E : Env) (ss : List Setup) (i : Int) : Option Nat := (named (ss.flatMap (·.entities)) i).bind E.find

/-- The property that belongs to an identifier. -/
def propertyOf (E : Env) (ss : List Setup) (i : Int) : Option Nat := (named (ss.flatMap (·.objects)) i).bind E.find

/-! ## What data mean -/

/-- Words as a value of a class: one by itself, several or those of a set as a set, or the members of a structure. -/
def asValue (E : Env) (handle : String) (ws : List Word) : Option Observe.Val :=
  if handle = "" then
    match ws with
    | [] => some (.objects [])
    | [w] => some (.atom w)
    | ws => some (.atoms ws)
  else if handle = "set" then some (.atoms ws)
  else (E.opcode handle).map fun op => .struct op ws

/-- The value a variable has. -/
def meaning (E : Env) (ss : List Setup) (v : Var) : Option Observe.Val :=
  match v.data with
  | .doubles xs => asValue E v.handle (xs.map fun x => float (E.narrow x))
  | .ints xs => asValue E v.handle (xs.map fun x => float (E.ofInt x))
  | .bools xs => asValue E v.handle (xs.map Atom.boolean)
  | .ids xs => if xs = [-1] then some (.objects []) else (xs.mapM (entityOf E ss)).map fun es => .objects (es.map some)
  | .texts xs => xs.head?.map .text

/-- The fact a variable received at time `t` should become. -/
def fact (E : Env) (ss : List Setup) (t : Int) (v : Var) : Option Seen :=
  (entityOf E ss v.entity).bind fun e => (propertyOf E ss v.prop).bind fun p =>
    (meaning E ss v).map fun x => ⟨e, p, x, t, t + E.period⟩

/-- A variable that has a value: one text, at least one identifier. -/
def Good (v : Var) : Prop :=
  match v.data with
  | .texts xs => xs.length = 1
  | .ids xs => xs ≠ []
  | _ => True

/-- C149: whatever happened before, at a tick that is due and with a message of data first in the queue, the device
injects, in the order of the message, for every variable of an entity and a property it was told of, the fact that the
property of the entity has the value, for one sampling period from then; and nothing else. -/
def C149_full : Prop :=
  ∀ (E : Env) (s0 : Setup) (w0 w : World) (es : List Event) (t : Int) (vs : List Var) (q : List Msg),
    start E s0 = some w0 → run E w0 es = some w → Clear (setups s0 w) → (∀ v ∈ vs, Good v) →
    w.queue = .data vs :: q → w.dev.last + (E.period * 8).tdiv 10 ≤ t →
    ∃ w', tick E w t = some w' ∧ w'.seen = w.seen ++ vs.filterMap (fact E (setups s0 w) t)

/-! ## Commands -/

/-- `o` is a command of opcode `op` whose arguments are at `a`: the object `e` and `n` more. -/
def Command (o : Obj) (op : BitVec 16) (a n e : Nat) : Prop :=
  o.code[1]? = some (deviceFunction op) ∧
  ∃ w h, o.code[2]? = some w ∧ getDescriptor w = 0x84 ∧ (asIndex w).toNat = a ∧ o.code[a]? = some h ∧
    getDescriptor h = 0xC1 ∧ (getAtomCount h).toNat = n + 1 ∧ RefersTo o.code o.refs (a + 1) (some e)

/-- A command described as having one number by itself. -/
def Scalar (x : Meta) : Prop := x.handle = "" ∧ (x.dims = [1] ∨ x.dims = [1, 1])

/-- The words of the argument after the object: one word by itself or the members of a set or structure. -/
def Argument (o : Obj) (x : Meta) (a : Nat) (ws : List Word) : Prop :=
  (Scalar x ∧ ∃ w, ws = [w] ∧ o.code[a + 2]? = some w) ∨ (¬ Scalar x ∧ ∃ h, PointsTo o.code (a + 2) h ws)

/-- The words `ws` of command `o` are the values `v`, of type `t`. -/
def Carries (E : Env) (ss : List Setup) (o : Obj) (t : Ty) (ws : List Word) (v : Out) : Prop :=
  match t, v with
  | .double, .doubles xs => List.Forall₂ (fun w x => isFloat w = true ∧ asFloat w = x) ws xs
  | .int64, .ints xs => List.Forall₂ (fun w x => Num w (x * unit) ∧ -2147483648 ≤ x ∧ x < 2147483648) ws xs
  | .bool, .bools xs => List.Forall₂ (fun w x => w = Atom.boolean x) ws xs
  | .commId, .ids xs => List.Forall₂ (fun w i => getDescriptor w = 0x85 ∧
      ∃ e, o.refs[(asIndex w).toNat]? = some (some e) ∧ entityOf E ss i = some e) ws xs
  | _, _ => False

/-- Opcodes are those of one name each, none of them the mark of an unknown name. -/
def Opcodes (E : Env) : Prop :=
  ∀ n m op, E.opcode n = some op → E.opcode m = some op → n = m ∧ op ≠ 0xFFFF

/-- C150: whatever happened before, the device answers that a command was not executed exactly if it sent nothing; and
if a program sends a command the environment told of, for an entity it told of, with values as described, the
environment gets the command, the entity and the values. The command `ready`, which starts the environment, is apart. -/
def C150_full : Prop :=
  ∀ (E : Env) (s0 : Setup) (w0 w : World) (es : List Event), Opcodes E →
    start E s0 = some w0 → run E w0 es = some w → Clear (setups s0 w) →
    (∀ (o : Obj) (a : Answer) (d : Dev) (ms : List Sent), w.dev.commands.get "ready" ≠ some (function o) →
      eject w.dev o = some (a, d, ms) → (a = .null ↔ ms = [])) ∧
    ∀ (name : String) (op : BitVec 16) (x : Meta) (s : Setup) (o : Obj) (a e : Nat), name ≠ "ready" →
      E.opcode name = some op → s ∈ setups s0 w → (∃ i, (name, i) ∈ s.commands) → (name, x) ∈ s.descriptions →
      entityOf E (setups s0 w) x.entity = some e →
      (Command o op a 0 e → eject w.dev o = some (.same, w.dev, [.command x.entity x.ident .none])) ∧
      ∀ ws v, Command o op a 1 e → Argument o x a ws → Carries E (setups s0 w) o x.type ws v →
        eject w.dev o = some (.same, w.dev, [.command x.entity x.ident v])

/-! ## The order -/

/-- The messages received in a history. -/
def received : List Event → List Msg
  | [] => []
  | .receive m :: es => m :: received es
  | _ :: es => received es

/-- No message is lost. -/
def Lossless (es : List Event) : Prop := ∀ i, Event.lose i ∉ es

/-- The times at which messages were handled are not less than `g` apart. -/
def Apart (g : Int) (ts : List Int) : Prop := ts.Pairwise fun a b => a + g ≤ b

/-- C151: whatever happens, messages are handled in the order they came, each at most once, and exactly once or still
in the queue if the queue loses none; not less than eight tenths of the sampling period apart; and at a tick that
long after the last, the first message of the queue, if any, is handled. -/
def C151_full : Prop :=
  ∀ (E : Env) (s0 : Setup) (w0 w : World) (es : List Event), 0 ≤ E.period →
    start E s0 = some w0 → run E w0 es = some w →
    (w.handled.map (·.2) ++ w.queue).Sublist (received es) ∧
    (Lossless es → w.handled.map (·.2) ++ w.queue = received es) ∧
    Apart ((E.period * 8).tdiv 10) (w.handled.map (·.1)) ∧
    ∀ t w', tick E w t = some w' → (∀ u, (w.handled.map (·.1)).getLast? = some u → u + (E.period * 8).tdiv 10 ≤ t) →
      (E.period * 8).tdiv 10 ≤ t → ∀ m q, w.queue = m :: q → w'.queue = q ∧ w'.handled = w.handled ++ [(t, m)]

end Verif.Tcp
