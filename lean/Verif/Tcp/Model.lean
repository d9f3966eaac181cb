import Verif.Screen.Model
/-!
# The device for an environment reached over a network

`TcpIoDevice` (AERA/IODevices/TCP/tcp_io_device.cpp): the environment names its entities, properties and commands in
a message of setup, then sends messages of data, each a list of variables; programs send it commands.

Messages are taken as they are after decoding: `MsgData` and `MetaData` belong to the library AERA_Protobuf, which is
not in the repository; so are the connection and its two queues. The queue of messages received is first in, first out;
how many it holds (tcp_io_device.cpp:141) and which it loses when it is full is left open: it may lose any.
Simplified: identifiers are integers (`id_mapping_` has keys of type `int`); the clock is read once at a tick;
a tick that waits for a message (diagnostic mode) is a tick after the message has come; that the words of a command
with a `quat` are written again (tcp_io_device.cpp:319-324) is left out: the test `cmd->code(start) < 0` compares an
unsigned number, so they are multiplied by 1. That reading the code of a short command lengthens it is not shown.
-/
namespace Verif.Tcp
open Verif.Atom Verif.Observe Verif.Screen

/-! ## Tables -/

/-- `std::map`. -/
abbrev Map (κ α : Type) := List (κ × α)

/-- `find`. -/
def Map.get {κ α : Type} [DecidableEq κ] (m : Map κ α) (k : κ) : Option α :=
  (m.find? fun p => decide (p.1 = k)).map (·.2)

/-- `m[k] = v`. -/
def Map.put {κ α : Type} [DecidableEq κ] (m : Map κ α) (k : κ) (v : α) : Map κ α :=
  if (m.get k).isSome then m.map fun p => if p.1 = k then (k, v) else p else m ++ [(k, v)]

/-- `insert`: what is there stays. -/
def Map.insert {κ α : Type} [DecidableEq κ] (m : Map κ α) (k : κ) (v : α) : Map κ α :=
  if (m.get k).isSome then m else m ++ [(k, v)]

/-! ## Messages -/

/-- The values of a variable, with their type. Numbers of double precision are 64 bits. -/
inductive Data
  | doubles (xs : List (BitVec 64))
  | ints (xs : List Int)
  | bools (xs : List Bool)
  | ids (xs : List Int)
  | texts (xs : List (List (BitVec 8)))
  deriving DecidableEq, Repr

/-- A variable of a message of data: the entity and the property it is of, its class, its values. -/
structure Var where
  entity : Int
  prop : Int
  handle : String
  data : Data
  deriving DecidableEq, Repr

/-- `VariableDescription_DataType`. -/
inductive Ty
  | double | int64 | bool | commId | string
  deriving DecidableEq, Repr

/-- `MetaData`: the description of a command. -/
structure Meta where
  entity : Int
  ident : Int
  type : Ty
  handle : String
  dims : List Nat
  deriving DecidableEq, Repr

/-- A message of setup: the identifiers of the entities, the commands, the properties; the commands described. -/
structure Setup where
  entities : List (String × Int)
  commands : List (String × Int)
  objects : List (String × Int)
  descriptions : List (String × Meta)
  deriving DecidableEq, Repr

/-- What the environment sends. -/
inductive Msg
  | setup (s : Setup)
  | data (vs : List Var)
  | other
  deriving DecidableEq, Repr

/-- The values of a command that is sent; a number of single precision is sent as the same number. -/
inductive Out
  | none
  | doubles (xs : List (BitVec 32))
  | ints (xs : List Int)
  | bools (xs : List Bool)
  | ids (xs : List Int)
  deriving DecidableEq, Repr

/-- What the device sends. -/
inductive Sent
  | start
  | command (entity ident : Int) (values : Out)
  deriving DecidableEq, Repr

/-! ## The device -/

/-- What the device is given: the opcodes by name, the objects of the program by name, the conversions of numbers to
single precision, the sampling period. -/
structure Env where
  opcode : String → Option (BitVec 16)
  find : String → Option Nat
  narrow : BitVec 64 → BitVec 32
  ofInt : Int → BitVec 32
  period : Int

/-- `TcpIoDevice` (tcp_io_device.h:186-208). A null pointer is `none`. -/
structure Dev where
  ids : Map Int String
  entities : Map String (Option Nat)
  objects : Map String (Option Nat)
  commands : Map String (BitVec 16)
  metas : Map String Meta
  started : Bool
  last : Int
  deriving DecidableEq, Repr

/-- tcp_io_device.cpp:137-150: as constructed. -/
def Dev.init : Dev := ⟨[], [], [], [], [], false, 0⟩

/-- tcp_io_device.cpp:671-675 and 685-689: names, with nothing found for them yet. -/
def putNames (ids : Map Int String) (m : Map String (Option Nat)) :
    List (String × Int) → Map Int String × Map String (Option Nat)
  | [] => (ids, m)
  | (n, i) :: l => putNames (ids.put i n) (m.put n none) l

/-- tcp_io_device.cpp:678-682. -/
def putCommands (ids : Map Int String) (m : Map String (BitVec 16)) :
    List (String × Int) → Map Int String × Map String (BitVec 16)
  | [] => (ids, m)
  | (n, i) :: l => putCommands (ids.put i n) (m.put n 0xFFFF) l

/-- tcp_io_device.cpp:695-703. -/
def putMetas (cs : Map String (BitVec 16)) (m : Map String Meta) : List (String × Meta) → Map String Meta
  | [] => m
  | (n, x) :: l => putMetas cs (if (cs.get n).isSome then m.insert n x else m) l

/-- tcp_io_device.cpp:665-710 `handleSetupMessage`, with what it sends. -/
def setup (d : Dev) (s : Setup) : Dev × List Sent :=
  let (ids, es) := putNames d.ids d.entities s.entities
  let (ids, cs) := putCommands ids d.commands s.commands
  let (ids, os) := putNames ids d.objects s.objects
  let cs := cs.insert "ready" 0xFFFF
  ({ d with ids := ids, entities := es, commands := cs, objects := os, metas := putMetas cs d.metas s.descriptions },
   if d.started then [.start] else [])

/-- tcp_io_device.cpp:213-225: `it->second = find_object(…)`, then `it->second->get_oid()`; `none` is a null pointer
followed. -/
def findAll (E : Env) : Map String (Option Nat) → Option (Map String (Option Nat))
  | [] => some []
  | (n, _) :: l => (E.find n).bind fun o => (findAll E l).map fun r => (n, some o) :: r

/-- tcp_io_device.cpp:228-232. -/
def opcodes (E : Env) (m : Map String (BitVec 16)) : Map String (BitVec 16) :=
  m.map fun p => (p.1, (E.opcode p.1).getD 0xFFFF)

/-- tcp_io_device.cpp:203-235 `load`. -/
def load (E : Env) (d : Dev) : Option Dev :=
  (findAll E d.entities).bind fun es => (findAll E d.objects).map fun os =>
    { d with entities := es, objects := os, commands := opcodes E d.commands }

/-! ## Data received -/

/-- A value handed to `inject_marker_value_from_io_device`, with an object and a property that are not null, to be
injected in stdin: what becomes of it is `Verif.Observe.inject`. -/
structure Seen where
  object : Nat
  prop : Nat
  value : Observe.Val
  after : Int
  before : Int
  deriving DecidableEq, Repr

/-- `entities_[id_mapping_[i]]`: both tables get an entry if they had none. -/
def look (ids : Map Int String) (m : Map String (Option Nat)) (i : Int) :
    Map Int String × Map String (Option Nat) × Option Nat :=
  let n := (ids.get i).getD ""
  (ids.insert i "", m.insert n none, ((m.get n).getD none))

/-- r_exec/mem.cpp:832-833 and the like: nothing is injected for a null object or property. -/
def marker (entity prop : Option Nat) (v : Observe.Val) (after before : Int) : List Seen :=
  match entity, prop with
  | some e, some p => [⟨e, p, v, after, before⟩]
  | _, _ => []

/-- tcp_io_device.cpp:552-563 and 567-578, with `injectDefault` (614-627), `injectSet` (642-651) and `injectOpCode`
(658-662): the numbers `xs`, of single precision. -/
def numbers (E : Env) (entity prop : Option Nat) (handle : String) (xs : List (BitVec 32)) (now : Int) : List Seen :=
  if handle = "" then
    match xs with
    | [] => marker entity prop (.objects []) now (now + E.period)
    | [x] => marker entity prop (.atom (float x)) now (now + E.period)
    | xs => marker entity prop (.atoms (xs.map float)) now (now + E.period)
  else if handle = "set" then marker entity prop (.atoms (xs.map float)) now (now + E.period)
  else
    match E.opcode handle with
    | none => []
    | some op => marker entity prop (.struct op (xs.map float)) now now

/-- tcp_io_device.cpp:582-599: the identifier of an entity; `none`: there is no first value. -/
def commId (E : Env) (d : Dev) (entity prop : Option Nat) (xs : List Int) (now : Int) : Option (List Seen) :=
  match xs with
  | [] => none
  | x :: _ =>
    if x = -1 then some (marker entity prop (.objects []) now (now + E.period))
    else
      match d.ids.get x with
      | none => some []
      | some n =>
        match d.entities.get n with
        | none => some []
        | some o => some (marker entity prop (.objects [o]) now (now + E.period))

/-- tcp_io_device.cpp:540-610: one variable. -/
def receive (E : Env) (d : Dev) (v : Var) (now : Int) : Option (Dev × List Seen) :=
  let (ids, es, entity) := look d.ids d.entities v.entity
  let (ids, os, prop) := look ids d.objects v.prop
  let d := { d with ids := ids, entities := es, objects := os }
  match v.data with
  | .doubles xs => some (d, numbers E entity prop v.handle (xs.map E.narrow) now)
  | .ints xs => some (d, numbers E entity prop v.handle (xs.map E.ofInt) now)
  | .ids xs => (commId E d entity prop xs now).map fun r => (d, r)
  | .texts xs => xs.head?.map fun s => (d, marker entity prop (.text s) now (now + E.period))
  | .bools _ => some (d, [])

/-- tcp_io_device.cpp:532-612 `handleDataMessage`. -/
def data (E : Env) (d : Dev) (now : Int) : List Var → Option (Dev × List Seen)
  | [] => some (d, [])
  | v :: vs => (receive E d v now).bind fun (d, r) => (data E d now vs).map fun (d, r') => (d, r ++ r')

/-! ## Commands -/

/-- `(int64)f`. -/
def toInt64 (f : BitVec 32) : Option Int :=
  if Match.isNaN f || Match.isInf f then none
  else
    let n := (Match.value f).tdiv (2 ^ 149)
    if -9223372036854775808 ≤ n ∧ n < 9223372036854775808 then some n else none

/-- tcp_io_device.cpp:385-406: the references of a command. `none`: one that is not there, or a number that does not
fit. -/
def refData (o : Obj) : List Word → Option (List Int)
  | [] => some []
  | w :: ws =>
    if getDescriptor w ≠ 0x85 then refData o ws
    else (o.refs[(asIndex w).toNat]?).bind fun _ => (toInt64 (asFloat w)).bind fun x =>
      (refData o ws).map fun xs => x :: xs

/-- tcp_io_device.cpp:365-413 `getDataVec` and 333-361: the values in the words `ws`. The outer `none` is undefined
behaviour; the inner one an invalid message. -/
def values (o : Obj) (t : Ty) (ws : List Word) : Option (Option Out) :=
  match t with
  | .bool => some (some (.bools (ws.map asBoolean)))
  | .int64 => (ws.mapM fun w => toInt (asFloat w)).map fun xs => some (.ints xs)
  | .double => some (some (.doubles (ws.map asFloat)))
  | .commId => (refData o ws).map fun xs => some (.ids xs)
  | .string => some none

/-- The words from `start`, `n` of them. -/
def words (o : Obj) (start n : Nat) : List Word := (List.range n).map fun k => at_ o (start + k)

/-- tcp_io_device.cpp:280-363 `constructMessageFromCommand`. -/
def message (d : Dev) (name : String) (o : Obj) : Option (Option Sent) :=
  match d.metas.get name with
  | none => some none
  | some x =>
    let a := (asIndex (at_ o 2)).toNat
    if getAtomCount (at_ o a) = 1 then some (some (.command x.entity x.ident .none))
    else if x.handle ≠ "" || (x.dims ≠ [1] && x.dims ≠ [1, 1]) then
      if getDescriptor (at_ o (a + 2)) ≠ 0x84 then some none
      else
        let s := (asIndex (at_ o (a + 2))).toNat
        (values o x.type (words o (s + 1) (getAtomCount (at_ o s)).toNat)).map fun r =>
          r.map fun v => .command x.entity x.ident v
    else (values o x.type (words o (a + 2) 1)).map fun r => r.map fun v => .command x.entity x.ident v

/-- tcp_io_device.cpp:242-257: `ready`. -/
def ready (d : Dev) (o : Obj) : Answer × Dev × List Sent :=
  let a := (asIndex (at_ o 2)).toNat
  if o.code.length < 2 || getDescriptor (at_ o (a + 1)) ≠ 0x84 ||
      getDescriptor (at_ o (asIndex (at_ o (a + 1))).toNat) ≠ 0xC6 then (.null, d, [])
  else if d.started then (.same, d, [])
  else (.same, { d with started := true }, [.start])

/-- tcp_io_device.cpp:263-275: the command called `name`. -/
def perform (d : Dev) (name : String) (o : Obj) : Option (Answer × Dev × List Sent) :=
  (o.refs[(asIndex (at_ o ((asIndex (at_ o 2)).toNat + 1))).toNat]?).bind fun obj =>
    if d.entities.any (fun p => decide (p.2 = obj)) then
      (message d name o).map fun r =>
        match r with
        | none => (.null, d, [])
        | some m => (.same, d, [m])
    else some (.same, d, [])

/-- tcp_io_device.cpp:238-278 `eject`; `none` is undefined behaviour. The command `ready` is in the table from the
first message of setup on. -/
def eject (d : Dev) (o : Obj) : Option (Answer × Dev × List Sent) :=
  if d.commands.get "ready" = some (function o) then some (ready d o)
  else
    match d.commands.find? fun p => decide (p.2 = function o) with
    | none => some (.null, d, [])
    | some p => perform d p.1 o

/-! ## Histories -/

/-- The device and the queue of messages received; what it has injected and sent, and the messages it has handled,
with the time. -/
structure World where
  dev : Dev
  queue : List Msg
  seen : List Seen
  sent : List Sent
  handled : List (Int × Msg)
  deriving DecidableEq, Repr

/-- tcp_io_device.cpp:515-529 `handleMessage`. -/
def handle (E : Env) (w : World) (now : Int) : Msg → Option World
  | .setup s => let r := setup w.dev s; some { w with dev := r.1, sent := w.sent ++ r.2 }
  | .data vs => (data E w.dev now vs).map fun r => { w with dev := r.1, seen := w.seen ++ r.2 }
  | .other => some w

/-- tcp_io_device.cpp:415-449 `on_time_tick`. -/
def tick (E : Env) (w : World) (now : Int) : Option World :=
  if now < w.dev.last + (E.period * 8).tdiv 10 then some w
  else
    match w.queue with
    | [] => some w
    | m :: q =>
      (handle E { w with queue := q } now m).map fun w =>
        { w with dev := { w.dev with last := now }, handled := w.handled ++ [(now, m)] }

/-- What happens to the device. -/
inductive Event
  | receive (m : Msg)
  | lose (i : Nat)
  | tick (now : Int)
  | eject (o : Obj)
  deriving DecidableEq, Repr

/-- One event. -/
def step (E : Env) (w : World) : Event → Option World
  | .receive m => some { w with queue := w.queue ++ [m] }
  | .lose i => some { w with queue := w.queue.eraseIdx i }
  | .tick t => tick E w t
  | .eject o => (eject w.dev o).map fun r => { w with dev := r.2.1, sent := w.sent ++ r.2.2 }

/-- A history. -/
def run (E : Env) (w : World) : List Event → Option World
  | [] => some w
  | e :: es => (step E w e).bind fun w => run E w es

/-- tcp_io_device.cpp:187-206 `initTCP`, which waits for a message of setup, then `load`. -/
def start (E : Env) (s : Setup) : Option World :=
  (load E (setup Dev.init s).1).map fun d => ⟨d, [], [], [], []⟩

end Verif.Tcp
