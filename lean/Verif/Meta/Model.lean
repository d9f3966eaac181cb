import Verif.Image.Model
/-!
# The tables of metadata, written and read

Transcription of `Metadata::write` (`/repo/r_comp/segments.cpp:119-170`), `Metadata::read` (172-229) and `Metadata::get_size`
(231-239, 281-331).  Classes and strings are written and read as in `Verif.Image` (C59).

Simplifications: an unordered map is a list of entries in the order of iteration, with keys that are distinct; reading is into
metadata that is empty (`read` appends to the vectors it finds); an index past the class array, for which the code adds classes that
are not initialised (resized_vector.h:142-147), is `none`.  `usr_classes_` is neither written nor read.  In the repository nothing
calls `write` and `read`; they are public (segments.h:132-133).
-/
namespace Verif.Meta

open Verif.Image

abbrev Str := List Byte

/-- segments.h:120-127. -/
structure Meta where
  byOp : List Class
  classes : List (Str × Class)
  sys : List (Str × Class)
  classNames : List Str
  opNames : List Str
  fnNames : List Str
deriving DecidableEq, Repr

/-- `asOpcode` (atom.inline.cpp:440-443). -/
def opcode (c : Class) : W := (c.atom >>> 8) &&& 0xFFF#32

/-- A loop that writes elements one after the other (segments.cpp:124-128, 132-138, 142-148, 151-155, 158-162, 165-169). -/
def writeAll {α : Type} (w : Mem → Nat → α → Option Mem) (sz : α → Nat) (m : Mem) (a : Nat) : List α → Option Mem
  | [] => some m
  | x :: xs => (w m a x).bind fun m' => writeAll w sz m' (a + sz x) xs

/-- The number of elements, then the elements (121, 130, 140, 150, 157, 164). -/
def writeSec {α : Type} (w : Mem → Nat → α → Option Mem) (sz : α → Nat) (m : Mem) (a : Nat) (l : List α) : Option Mem :=
  (store m a (BitVec.ofNat 32 l.length)).bind fun m' => writeAll w sz m' (a + 1) l

/-- 285, 294, 303, 311, 319, 327. -/
def secSize {α : Type} (sz : α → Nat) (l : List α) : Nat := 1 + (l.map sz).sum

/-- 134-137, 144-147: the name and the opcode. -/
def writeEntry (m : Mem) (a : Nat) (e : Str × Class) : Option Mem :=
  (writeStr m a e.1).bind fun m' => store m' (a + strSize e.1) (opcode e.2)

def entrySize (e : Str × Class) : Nat := strSize e.1 + 1

/-- `get_size`. -/
def Meta.size (x : Meta) : Nat :=
  secSize Class.size x.byOp + secSize entrySize x.classes + secSize entrySize x.sys + secSize strSize x.classNames + secSize strSize x.opNames +
    secSize strSize x.fnNames

/-- `write`. -/
def Meta.write (m : Mem) (b : Nat) (x : Meta) : Option Mem := do
  let m ← writeSec (fun m a c => Class.write m a c) Class.size m b x.byOp
  let b := b + secSize Class.size x.byOp
  let m ← writeSec writeEntry entrySize m b x.classes
  let b := b + secSize entrySize x.classes
  let m ← writeSec writeEntry entrySize m b x.sys
  let b := b + secSize entrySize x.sys
  let m ← writeSec writeStr strSize m b x.classNames
  let b := b + secSize strSize x.classNames
  let m ← writeSec writeStr strSize m b x.opNames
  let b := b + secSize strSize x.opNames
  writeSec writeStr strSize m b x.fnNames

/-- Offsets and counts are `uint16` (174-176). -/
def w16 (n : Nat) : Nat := n % 65536

/-- A loop that reads elements: `b` is `data`, `o` is `offset`. -/
def readAll {β : Type} (r : Mem → Nat → Nat → Option β) (sz : β → Nat) (m : Mem) (b : Nat) : Nat → Nat → Option (List β × Nat)
  | 0, o => some ([], o)
  | n + 1, o => (r m b o).bind fun x => (readAll r sz m b n (w16 (o + sz x))).map fun p => (x :: p.1, p.2)

/-- The count and the loop. -/
def readSec {β : Type} (r : Mem → Nat → Nat → Option β) (sz : β → Nat) (m : Mem) (b o : Nat) : Option (List β × Nat) :=
  (load m (b + o)).bind fun c => readAll r sz m b (w16 c.toNat) (w16 (o + 1))

/-- 179-180, 188-189: strings are read into empty ones, classes into classes of the name `s0`. -/
def rdClass (s0 : Str) (m : Mem) (b o : Nat) : Option Class := Class.readInto s0 m (b + o)
def rdStr (m : Mem) (b o : Nat) : Option Str := readStr m (b + o) []

/-- 188-191, 197-200: the name and the index. -/
def rdEntry (m : Mem) (b o : Nat) : Option (Str × W) :=
  (rdStr m b o).bind fun s => (load m (b + w16 (o + strSize s))).map fun k => (s, k)

/-- `classes_[s] = c`. -/
def insert (l : List (Str × Class)) (s : Str) (c : Class) : List (Str × Class) :=
  if s ∈ l.map Prod.fst then l.map fun e => if e.1 = s then (s, c) else e else l ++ [(s, c)]

/-- 191, 200: the class of the index. -/
def resolve (cs : List Class) : List (Str × W) → List (Str × Class) → Option (List (Str × Class))
  | [], acc => some acc
  | (s, k) :: l, acc => (cs[k.toNat]?).bind fun c => resolve cs l (insert acc s c)

/-- `read`, with classes that have the name `s0` before they are read. -/
def readWith (s0 : Str) (m : Mem) (b : Nat) : Option Meta := do
  let (cs, o) ← readSec (rdClass s0) Class.size m b 0
  let (e1, o) ← readSec rdEntry (fun e => strSize e.1 + 1) m b o
  let (e2, o) ← readSec rdEntry (fun e => strSize e.1 + 1) m b o
  let (n1, o) ← readSec rdStr strSize m b o
  let (n2, o) ← readSec rdStr strSize m b o
  let (n3, _) ← readSec rdStr strSize m b o
  let c1 ← resolve cs e1 []
  let c2 ← resolve cs e2 []
  some ⟨cs, c1, c2, n1, n2, n3⟩

/-- `read` (class.cpp:109: the name is "undefined" before). -/
def Meta.read (m : Mem) (b : Nat) : Option Meta := readWith undefinedStr m b

end Verif.Meta
