import Verif.Words.Model
import Verif.Match.Model
/-!
# What devices put into memory

The functions a device calls to inject what it observes (r_exec/mem.cpp:829-988), the constructors of facts and
views they use (r_exec/factory.cpp:199-210, r_exec/view.inline.cpp:115-164), and the record a program makes of a
command it sends to a device (r_exec/pgm_overlay.cpp:457-499).

Objects are numbered; a null pointer is `none`. The injection itself (`_Mem::inject`) is the subject of C31.
Timestamps in objects are 64-bit; the arithmetic of the record is on integers (no overflow).
-/
namespace Verif.Observe
open Verif.Atom Verif.Words

/-- `LocalObject`: `code_` and `references_` (r_code/object.h:385-404). -/
structure Obj where
  code : Code
  refs : List (Option Nat) := []
  deriving DecidableEq, Repr

/-- `code(i) = w`. -/
def Obj.put (o : Obj) (i : Nat) (w : Word) : Obj := { o with code := Words.put o.code i w }

/-- `set_reference(i, r)`: `references_[i] = r`, which grows the vector (r_code/object.h:405,
resized_vector.h:143-148). -/
def Obj.setRef (o : Obj) (i : Nat) (r : Option Nat) : Obj :=
  { o with refs := (o.refs ++ List.replicate (i + 1 - o.refs.length) none).set i r }

/-- `Atom::Float(1)`. -/
def one : Word := float 0x3F800000

/-! ## Values of attributes -/

/-- The value of an attribute as a device has it: an atom, atoms, an object, a text, objects, or the members of a
structure of a class. -/
inductive Val
  | atom (w : Word)
  | atoms (ws : List Word)
  | object (o : Option Nat)
  | text (s : List (BitVec 8))
  | objects (os : List (Option Nat))
  | struct (op : BitVec 16) (ws : List Word)
  deriving DecidableEq, Repr

/-- `for (…) object->code(++extent_index) = val[i]`; the next word is number `i`. -/
def putAll (o : Obj) (i : Nat) : List Word → Obj
  | [] => o
  | w :: ws => putAll (o.put i w) (i + 1) ws

/-- The loop of the function for objects (r_exec/mem.cpp:942-945). -/
def putRefs (o : Obj) (i : Nat) : List (Option Nat) → Obj
  | [] => o
  | r :: rs => putRefs ((o.put i (rPointer (BitVec.ofNat 16 o.refs.length))).setRef o.refs.length r) (i + 1) rs

/-- `Utils::SetString(object, index, s)` (r_code/utils.h:320-340). -/
def Obj.setString (o : Obj) (index : Nat) (s : List (BitVec 8)) : Obj :=
  putAll o (target o.code index) (Words.setString s)

/-- What the six functions have in common: class, object, attribute, `v` for the value, and the threshold;
`mkVal` is `GetOpcode("mk.val")`. -/
def marked (mkVal : BitVec 16) (obj prop : Option Nat) (v : Word) : Obj :=
  (((((((⟨[], []⟩ : Obj).put 0 (marker mkVal 4)).put 1 (rPointer 0)).put 2 (rPointer 1)).put 3 v).put 4 one).setRef 0
    obj).setRef 1 prop

/-- r_exec/mem.cpp:829-972, the six functions `inject_marker_value_from_io_device`, up to the injection of the
fact. `none`: the loops over the values count with 16 bits and do not end. -/
def markerValue (mkVal : BitVec 16) (obj prop : Option Nat) : Val → Option Obj
  | .atom w => some (marked mkVal obj prop w)
  | .atoms ws =>
    if ws.length < 65536 then
      some (putAll ((marked mkVal obj prop (iPointer 5)).put 5 (set (BitVec.ofNat 8 ws.length))) 6 ws)
    else none
  | .object r => some ((marked mkVal obj prop (rPointer 2)).setRef 2 r)
  | .text s => some ((marked mkVal obj prop (iPointer 5)).setString 3 s)
  | .objects os =>
    if os.length < 65536 then
      some (putRefs ((marked mkVal obj prop (iPointer 5)).put 5 (set (BitVec.ofNat 8 os.length))) 6 os)
    else none
  | .struct op ws =>
    if ws.length < 65536 then
      some (putAll ((marked mkVal obj prop (iPointer 5)).put 5 (object op (BitVec.ofNat 8 ws.length))) 6 ws)
    else none

/-! ## Facts and views -/

/-- r_exec/factory.cpp:199-210 `_Fact(opcode, object, after, before, 1, 1)`. -/
def factOf (opcode : BitVec 16) (obj : Nat) (after before : BitVec 64) : Option Obj :=
  let o := ((((((⟨[], []⟩ : Obj).put 0 (Atom.object opcode 5)).put 1 (rPointer 0)).put 2 (iPointer 6)).put 3
    (iPointer 9)).put 4 one).put 5 one
  (setTimestamp o.code 2 after).bind fun c => (setTimestamp c 3 before).map fun c => ⟨c, [some obj]⟩

/-- `View::SyncMode` (r_code/object.h:189-195). -/
inductive Sync
  | once | periodic | hold | axiom_ | onceAxiom
  deriving DecidableEq, Repr

/-- The number of the mode as a float. -/
def Sync.bits : Sync → BitVec 32
  | .once => 0
  | .periodic => 0x3F800000
  | .hold => 0x40000000
  | .axiom_ => 0x40400000
  | .onceAxiom => 0x40800000

/-- A view: its code, its group, its origin, its object. -/
structure View where
  code : Code
  host : Option Nat
  org : Option Nat
  object : Obj
  deriving DecidableEq, Repr

/-- r_exec/view.inline.cpp:115-164, `View(sync, ijt, 1, 1, destination, origin, object)`; `op` is
`Opcodes::View`. The code of a view is an array of 13 words (replicode_defs.h:92), of which the first ten are
written. -/
def viewOf (op : BitVec 16) (sync : Sync) (ijt : BitVec 64) (host org : Option Nat) (object : Obj) : Option View :=
  let c := Words.put (Words.put (Words.put [] 0 (sSet op 6)) 1 (float sync.bits)) 2 (iPointer 7)
  (setTimestamp c 2 ijt).map fun c =>
    let c := Words.put (Words.put c 3 one) 4 one
    let c := Words.put c 5 (rPointer 0)
    ⟨Words.put c 6 (if org.isSome then rPointer 1 else nil), host, org, object⟩

/-- The opcodes used. -/
structure Opc where
  mkVal : BitVec 16
  fact : BitVec 16
  antiFact : BitVec 16
  view : BitVec 16
  deriving DecidableEq, Repr

/-- What a device's call leads to: nothing is injected, or a view of a fact of a marker of a value. -/
structure Injected where
  view : View
  marker : Obj
  deriving DecidableEq, Repr

/-- r_exec/mem.cpp:974-988 `inject_fact_from_io_device`: the view made for object number `id`. -/
def factView (O : Opc) (id : Nat) (after before : BitVec 64) (sync : Sync) (group : Option Nat) : Option View :=
  (factOf O.fact id after before).bind fun f => viewOf O.view sync after group none f

/-- r_exec/mem.cpp:829-988: a device injects the value of an attribute. `id` is the new marker. The outer
`none`: the call does not return. -/
def inject (O : Opc) (id : Nat) (obj prop : Option Nat) (v : Val) (after before : BitVec 64) (sync : Sync)
    (group : Option Nat) : Option (Option Injected) :=
  if obj.isNone || prop.isNone then some none
  else
    match markerValue O.mkVal obj prop v with
    | none => none
    | some m => (factView O id after before sync group).map fun w => some ⟨w, m⟩

/-! ## The record of a command -/

/-- What a program records of a command: whether it is a fact, the command it is of, its times; and whether it is
injected. -/
structure Record where
  positive : Bool
  command : Nat
  after : Int
  before : Int
  injected : Bool
  deriving DecidableEq, Repr

/-- r_exec/pgm_overlay.cpp:457-488: `command` was sent to the device, which answered `executed`. `ref` is the time
reference, `period` the sampling period, `tol` the time tolerance. `none`: division by zero. -/
def record (now ref period tol : Int) (command : Nat) (executed : Option Nat) : Option Record :=
  if period = 0 then none
  else
    let frame := now - (now - ref).tmod period
    let after := max now (frame + 2 * tol)
    let before := frame + period
    match executed with
    | some c => some ⟨true, c, after, before, true⟩
    | none => some ⟨false, command, after, before, false⟩

end Verif.Observe
