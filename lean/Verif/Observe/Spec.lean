import Verif.Observe.Model
/-!
# Reading what devices put into memory

How the words of a fact, of its view and of its marker are read back, field by field; C102 and C103 are stated with
these readings and not with the functions that write the words.
-/
namespace Verif.Observe
open Verif.Atom Verif.Words

/-- Word `i` of `c` refers to the object `r`. -/
def RefersTo (c : Code) (refs : List (Option Nat)) (i : Nat) (r : Option Nat) : Prop :=
  ∃ w, c[i]? = some w ∧ getDescriptor w = 0x85 ∧ refs[(asIndex w).toNat]? = some r

/-- Word `i` of `c` points to a structure whose first word is `h`, followed by `ws`. -/
def PointsTo (c : Code) (i : Nat) (h : Word) (ws : List Word) : Prop :=
  ∃ w, c[i]? = some w ∧ getDescriptor w = 0x84 ∧ c[(asIndex w).toNat]? = some h ∧
    (getAtomCount h).toNat = ws.length ∧
    ∀ k, k < ws.length → c[(asIndex w).toNat + 1 + k]? = ws[k]?

/-- The value at word 3 of a marker is `v`. -/
def Reads (m : Obj) : Val → Prop
  | .atom w => m.code[3]? = some w
  | .object r => RefersTo m.code m.refs 3 r
  | .atoms ws => ∃ h, getDescriptor h = 0xC1 ∧ PointsTo m.code 3 h ws
  | .struct op ws => ∃ h, getDescriptor h = 0xC3 ∧ asOpcode h = op ∧ PointsTo m.code 3 h ws
  | .objects os => ∃ w h, m.code[3]? = some w ∧ getDescriptor w = 0x84 ∧ m.code[(asIndex w).toNat]? = some h ∧
      getDescriptor h = 0xC1 ∧ (getAtomCount h).toNat = os.length ∧
      ∀ (k : Nat) r, os[k]? = some r → RefersTo m.code m.refs ((asIndex w).toNat + 1 + k) r
  | .text s => ∃ w, m.code[3]? = some w ∧ getDescriptor w = 0x84 ∧
      (m.code[(asIndex w).toNat]?.map getDescriptor) = some 0xC6 ∧
      getString (m.code.drop (asIndex w).toNat) = some s

/-- `m` says that attribute `prop` of object `obj` has value `v`. -/
def Says (O : Opc) (m : Obj) (obj prop : Option Nat) (v : Val) : Prop :=
  (∃ h, m.code[0]? = some h ∧ getDescriptor h = 0xC4 ∧ asOpcode h = O.mkVal ∧ (getAtomCount h).toNat = 4) ∧
    RefersTo m.code m.refs 1 obj ∧ RefersTo m.code m.refs 2 prop ∧ Reads m v ∧
    (m.code[4]?.map asFloat) = some 0x3F800000

/-- `f` is a fact, of certainty one, that object `id` holds from `after` to `before`. -/
def IsFact (op : BitVec 16) (f : Obj) (id : Nat) (after before : BitVec 64) : Prop :=
  (∃ h, f.code[0]? = some h ∧ getDescriptor h = 0xC3 ∧ asOpcode h = op ∧ (getAtomCount h).toNat = 5) ∧
    RefersTo f.code f.refs 1 (some id) ∧
    getTime f.code 2 = some after ∧ hasTimestamp f.code 2 = true ∧
    getTime f.code 3 = some before ∧ hasTimestamp f.code 3 = true ∧
    (f.code[4]?.map asFloat) = some 0x3F800000 ∧ (f.code[5]?.map asFloat) = some 0x3F800000

/-- The words of the floats 0, 1, 2, 3 and 4, by which the modes are known. -/
def modeWord (s : Sync) : BitVec 32 :=
  if s = .once then 0 else if s = .periodic then 0x3F800000 else if s = .hold then 0x40000000
  else if s = .axiom_ then 0x40400000 else 0x40800000

/-- `v` shows its object in `host` from time `ijt`, with saliency one, for one period, without origin, and in mode
`sync`. -/
def Shows (O : Opc) (v : View) (sync : Sync) (ijt : BitVec 64) (host : Option Nat) : Prop :=
  (∃ h, v.code[0]? = some h ∧ getDescriptor h = 0xC2 ∧ asOpcode h = O.view ∧ (getAtomCount h).toNat = 6) ∧
    (v.code[1]?.map asFloat) = some (modeWord sync) ∧ getTime v.code 2 = some ijt ∧ hasTimestamp v.code 2 = true ∧
    (v.code[3]?.map asFloat) = some 0x3F800000 ∧ (v.code[4]?.map asFloat) = some 0x3F800000 ∧
    v.host = host ∧ v.org = none ∧ v.code[6]? = some nil ∧ v.code.length ≤ 12

/-- The opcodes fit in the twelve bits there are for them. -/
def Opc.Fit (O : Opc) : Prop :=
  O.mkVal.toNat < 4096 ∧ O.fact.toNat < 4096 ∧ O.antiFact.toNat < 4096 ∧ O.view.toNat < 4096

/-- C102: what a device injects is the fact it was asked for. -/
def C102_full : Prop :=
  ∀ (O : Opc), O.Fit → ∀ (id obj prop : Nat) (v : Val) (after before : BitVec 64) (sync : Sync) (group : Option Nat),
    ∃ r, inject O id (some obj) (some prop) v after before sync group = some (some r) ∧
      Says O r.marker (some obj) (some prop) v ∧ IsFact O.fact r.view.object id after before ∧
      Shows O r.view sync after group

/-- The values that an object can hold: no more than 255 members, texts of at most 254 non-zero ASCII characters, and
opcodes of twelve bits. -/
def Val.Small : Val → Prop
  | .atom _ | .object _ => True
  | .atoms ws => ws.length < 256
  | .objects os => os.length < 256
  | .struct op ws => op.toNat < 4096 ∧ ws.length < 256
  | .text s => s.length < 255 ∧ ∀ b ∈ s, b ≠ 0 ∧ b.toNat < 128

/-- C103: for every command sent to a device at `now`, the program records whether and how it was executed, over a time
interval that begins now or later and ends with the current sampling period. -/
def C103_full : Prop :=
  ∀ (now ref period tol : Int) (command : Nat) (executed : Option Nat), 0 < period → 0 ≤ tol →
    ∃ r k, record now ref period tol command executed = some r ∧
      (∀ c, executed = some c → r.positive = true ∧ r.command = c ∧ r.injected = true) ∧
      (executed = none → r.positive = false ∧ r.command = command ∧ r.injected = false) ∧
      now ≤ r.after ∧ r.after ≤ r.before ∧
      r.before = ref + (k + 1) * period ∧ ref + k * period ≤ now ∧ now < ref + (k + 1) * period

end Verif.Observe
