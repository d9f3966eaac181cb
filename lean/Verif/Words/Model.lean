import Verif.Atom.Model
/-!
# Times and strings inside an object's code

Transcription of the `Utils` accessors of `/repo/r_code/utils.h` and
`/repo/r_code/code_utils.cpp` over code vectors.  Instants and durations are the signed 64-bit
microsecond counts (`std::chrono` wrappers dropped), as `BitVec 64`.
-/
namespace Verif.Words
open Verif.Atom

/-- The code of an object: `LocalObject::code_` (r_code/object.h:385-404), a
`resized_vector<Atom>`. -/
abbrev Code := List Word

/-- `resized_vector::resize` growing part (resized_vector.h:138-171, `std::vector::resize`; new
atoms are default constructed, atom.h:231). -/
def grow (c : Code) (n : Nat) : Code := c ++ List.replicate (n - c.length) Atom.default

/-- `object->code(i) = w` on a non-const object: `resized_vector::operator[]` grows the vector to
`i + 1` if needed, then assigns (resized_vector.h:143-148). -/
def put (c : Code) (i : Nat) (w : Word) : Code := (grow c (i + 1)).set i w

/-- `resize_code(n)` (object.h:404): exact size, truncating or growing. -/
def resize (c : Code) (n : Nat) : Code := (grow c n).take n

/-- Reading `code(i)`; out of range is undefined behaviour (`none`). -/
def get (c : Code) (i : Nat) : Option Word := c[i]?

/-- `Utils::GetInt64` (utils.h:137-140). -/
def getInt64 (c : Code) (i : Nat) : Option (BitVec 64) := do
  let hi ← get c i
  let lo ← get c (i + 1)
  pure ((hi.setWidth 64 <<< 32) ||| lo.setWidth 64)

/-- High word written by `Utils::SetInt64` (utils.h:149): `(uint64)value >> 32`. -/
def hi32 (v : BitVec 64) : Word := (v >>> 32).setWidth 32
/-- Low word written by `Utils::SetInt64` (utils.h:150): `value & 0xFFFFFFFF`. -/
def lo32 (v : BitVec 64) : Word := (v &&& 0x00000000FFFFFFFF).setWidth 32

/-- `Utils::SetInt64` (utils.h:148-151); the caller guarantees room (otherwise undefined). -/
def setInt64 (c : Code) (i : Nat) (v : BitVec 64) : Option Code :=
  if i + 1 < c.length then some ((c.set i (hi32 v)).set (i + 1) (lo32 v)) else none

/-- `Utils::SetTimestampStruct` (code_utils.cpp:140-146). -/
def setTimestampStruct (c : Code) (i : Nat) (v : BitVec 64) : Option Code :=
  setInt64 (put (put c i timestamp) (i + 2) 0) (i + 1) v

/-- `Utils::SetDurationStruct` (code_utils.cpp:168-172). -/
def setDurationStruct (c : Code) (i : Nat) (v : BitVec 64) : Option Code :=
  setInt64 (put (resize c (i + 3)) i duration) (i + 1) v

/-- `object->code(index).asIndex()` on a non-const object: reading grows the vector as well
(utils.h:218, 281; resized_vector.h:143-148). -/
def target (c : Code) (index : Nat) : Nat :=
  (asIndex ((grow c (index + 1)).getD index Atom.default)).toNat

/-- `Utils::SetTimestamp<O>` (utils.h:215-223). -/
def setTimestamp (c : Code) (index : Nat) (v : BitVec 64) : Option Code :=
  let t := target c index
  setInt64 (put (put (grow c (index + 1)) t timestamp) (t + 2) 0) (t + 1) v

/-- `Utils::SetDuration<O>` (utils.h:278-286). -/
def setDuration (c : Code) (index : Nat) (v : BitVec 64) : Option Code :=
  let t := target c index
  setInt64 (put (put (grow c (index + 1)) t duration) (t + 2) 0) (t + 1) v

/-- `Utils::GetTimestamp<O>`/`GetDuration<O>` on a const object (utils.h:202-206, 265-269). -/
def getTime (c : Code) (index : Nat) : Option (BitVec 64) := do
  let a ← get c index
  getInt64 c ((asIndex a).toNat + 1)

/-- `Utils::HasTimestamp<O>` (utils.h:182-193). -/
def hasTimestamp (c : Code) (index : Nat) : Bool :=
  if c.length ≤ index then false else
  match get c index with
  | none => false
  | some a =>
    if getDescriptor a ≠ 0x84 then false else
    if c.length ≤ (asIndex a).toNat + 2 then false else
    match get c (asIndex a).toNat with
    | none => false
    | some b => getDescriptor b == 0xC7

/-! ### Strings -/

/-- The loop of `Utils::SetString` (code_utils.cpp:209-219): `char` is signed, so `s[i] << shift`
sign-extends before shifting. Emits a word whenever four characters are in; returns the words
emitted and the pending `st`. -/
def packLoop : List (BitVec 8) → (st : Word) → (shift : Nat) → List Word × Word
  | [], st, _ => ([], st)
  | ch :: cs, st, shift =>
    let st' := st ||| (ch.signExtend 32 <<< shift)
    if shift + 8 = 32 then
      let r := packLoop cs 0 0
      (st' :: r.1, r.2)
    else packLoop cs st' (shift + 8)

/-- `Utils::SetString(Atom*, s)` (code_utils.cpp:202-222): the words written from `iptr[0]` on.
The length is truncated to `uint8`, and only that many characters are packed. -/
def setString (s : List (BitVec 8)) : List Word :=
  let l : BitVec 8 := BitVec.ofNat 8 s.length
  let r := packLoop (s.take l.toNat) 0 0
  string l :: (r.1 ++ (if l.toNat % 4 = 0 then [] else [r.2]))

/-- The bytes of a word in memory (little-endian target), as seen by `memcpy`. -/
def bytes (w : Word) : List (BitVec 8) :=
  [w.setWidth 8, (w >>> 8).setWidth 8, (w >>> 16).setWidth 8, (w >>> 24).setWidth 8]

/-- `s += buffer`: a C string ends at its first zero byte. -/
def cString (b : List (BitVec 8)) : List (BitVec 8) := b.takeWhile (· ≠ 0)

/-- `Utils::GetString(const Atom*)` (code_utils.cpp:191-200). Undefined when the words to copy are
not there, or when `buffer[char_count]` is outside the 255-byte buffer. -/
def getString (c : List Word) : Option (List (BitVec 8)) :=
  match c with
  | [] => none
  | h :: ws =>
    let n := (getDeviceID h).toNat      -- `iptr[0].atom_ & 0xFF`
    let mem := ws.flatMap bytes
    if mem.length < n then none
    else if 255 ≤ n then none
    else some (cString (mem.take n))

end Verif.Words
