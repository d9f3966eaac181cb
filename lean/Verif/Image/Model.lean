/-!
# Image records: r_code/object.cpp (SysView, SysObject), r_code/image.{cpp,tpl.cpp},
r_comp/segments.{h,cpp} (ObjectMap, CodeSegment, ObjectNames, Image), r_comp/class.cpp,
r_comp/structure_member.cpp

Memory is the buffer `word32 data[]`, a list of 32-bit words; a pointer into it is a natural number.
An access outside the buffer is undefined behaviour: `none`.
`uint32` counts and offsets are natural numbers (they are stored truncated to 32 bits in the
buffer); the theorems assume less than 2^32 words where it matters. `uint16` offsets and counts are
reduced modulo 2^16 explicitly.
-/
namespace Verif.Image

abbrev W := BitVec 32
abbrev H := BitVec 16
abbrev Byte := BitVec 8
abbrev Mem := List W

/-- `data[a] = v`. -/
def store (m : Mem) (a : Nat) (v : W) : Option Mem := if a < m.length then some (m.set a v) else none
/-- `data[a]`. -/
def load (m : Mem) (a : Nat) : Option W := m[a]?

/-- `for (i = 0; i < n; ++i) data[a + i] = v[i]`. -/
def storeList (m : Mem) (a : Nat) : List W → Option Mem
  | [] => some m
  | v :: vs => (store m a v).bind (fun m' => storeList m' (a + 1) vs)

/-- `for (i = 0; i < n; ++i) v.push_back(data[a + i])`. -/
def loadList (m : Mem) (a : Nat) : Nat → Option (List W)
  | 0 => some []
  | n + 1 => (load m a).bind (fun v => (loadList m (a + 1) n).map (v :: ·))

/-! ## Views and objects -/

/-- object.h:107-131 (`ImageObject`, `SysView`): code words and 16-bit reference indices. -/
structure SysView where
  code : List W
  refs : List H
deriving DecidableEq, Repr

/-- object.cpp:144-147 (`SysView::get_size`). -/
def SysView.size (v : SysView) : Nat := 2 + v.code.length + v.refs.length

/-- object.cpp:121-130 (`SysView::write`). -/
def SysView.write (m : Mem) (b : Nat) (v : SysView) : Option Mem := do
  let m ← store m b (BitVec.ofNat 32 v.code.length)
  let m ← store m (b + 1) (BitVec.ofNat 32 v.refs.length)
  let m ← storeList m (b + 2) v.code
  storeList m (b + 2 + v.code.length) (v.refs.map (BitVec.setWidth 32))

/-- object.cpp:132-142 (`SysView::read`, into a fresh view): references are truncated to 16 bits. -/
def SysView.read (m : Mem) (b : Nat) : Option SysView := do
  let cs ← load m b
  let rs ← load m (b + 1)
  let code ← loadList m (b + 2) cs.toNat
  let refs ← loadList m (b + 2 + cs.toNat) rs.toNat
  some ⟨code, refs.map (BitVec.setWidth 16)⟩

/-- object.h:135-159 (`SysObject`). -/
structure SysObject where
  oid : W
  code : List W
  refs : List H
  markers : List W
  views : List SysView
deriving DecidableEq, Repr

/-- object.cpp:202-225: the loop writing the views one after the other. -/
def writeViews (m : Mem) (a : Nat) : List SysView → Option Mem
  | [] => some m
  | v :: vs => (v.write m a).bind (fun m' => writeViews m' (a + v.size) vs)

/-- object.cpp:244-251: the loop reading the views. -/
def readViews (m : Mem) (a : Nat) : Nat → Option (List SysView)
  | 0 => some []
  | n + 1 => (SysView.read m a).bind (fun v => (readViews m (a + v.size) n).map (v :: ·))

/-- object.cpp:254-260 (`SysObject::get_size`). -/
def SysObject.size (o : SysObject) : Nat :=
  5 + o.code.length + o.refs.length + o.markers.length + (o.views.map SysView.size).sum

/-- object.cpp:202-225 (`SysObject::write`). -/
def SysObject.write (m : Mem) (b : Nat) (o : SysObject) : Option Mem := do
  let m ← store m b o.oid
  let m ← store m (b + 1) (BitVec.ofNat 32 o.code.length)
  let m ← store m (b + 2) (BitVec.ofNat 32 o.refs.length)
  let m ← store m (b + 3) (BitVec.ofNat 32 o.markers.length)
  let m ← store m (b + 4) (BitVec.ofNat 32 o.views.length)
  let m ← storeList m (b + 5) o.code
  let m ← storeList m (b + 5 + o.code.length) (o.refs.map (BitVec.setWidth 32))
  let m ← storeList m (b + 5 + o.code.length + o.refs.length) o.markers
  writeViews m (b + 5 + o.code.length + o.refs.length + o.markers.length) o.views

/-- object.cpp:227-252 (`SysObject::read`, into a fresh object). -/
def SysObject.read (m : Mem) (b : Nat) : Option SysObject := do
  let oid ← load m b
  let cs ← load m (b + 1)
  let rs ← load m (b + 2)
  let ms ← load m (b + 3)
  let vs ← load m (b + 4)
  let code ← loadList m (b + 5) cs.toNat
  let refs ← loadList m (b + 5 + cs.toNat) rs.toNat
  let markers ← loadList m (b + 5 + cs.toNat + rs.toNat) ms.toNat
  let views ← readViews m (b + 5 + cs.toNat + rs.toNat + ms.toNat) vs.toNat
  some ⟨oid, code, refs.map (BitVec.setWidth 16), markers, views⟩

/-! ## Bytes in words (x86: little endian) -/

/-- Byte `i` (0..3) of a word in memory. -/
def getByte (w : W) (i : Nat) : Byte := (w >>> (8 * i)).setWidth 8
/-- Overwriting byte `i` of a word in memory. -/
def setByte (w : W) (i : Nat) (v : Byte) : W :=
  (w &&& ~~~((255#32) <<< (8 * i))) ||| ((v.setWidth 32) <<< (8 * i))

/-- `((char *)data)[k]`. -/
def loadByte (m : Mem) (k : Nat) : Option Byte := (m[k / 4]?).map (fun w => getByte w (k % 4))
/-- `((char *)data)[k] = v`. -/
def storeByte (m : Mem) (k : Nat) (v : Byte) : Option Mem :=
  (m[k / 4]?).map (fun w => m.set (k / 4) (setByte w (k % 4) v))
/-- Copying bytes one after the other (memcpy, or the loop of image.cpp:101-102). -/
def storeBytes (m : Mem) (k : Nat) : List Byte → Option Mem
  | [] => some m
  | v :: vs => (storeByte m k v).bind (fun m' => storeBytes m' (k + 1) vs)
/-- Reading a NUL terminated string (image.cpp:108-116; `std::string(char *)`). `fuel` bounds the
scan by the end of the buffer, beyond which reading is undefined. -/
def loadCStr (m : Mem) (k : Nat) : Nat → Option (List Byte)
  | 0 => none
  | fuel + 1 => (loadByte m k).bind (fun c =>
      if c = 0#8 then some [] else (loadCStr m (k + 1) fuel).map (c :: ·))

/-- Reads the C string starting at word `a`. -/
def cstrAt (m : Mem) (a : Nat) : Option (List Byte) := loadCStr m (4 * a) (4 * m.length + 1)

/-- Number of words for the characters and the terminating NUL (segments.cpp:414-418, 449-453;
image.cpp:90-96 minus the heading length word). -/
def strWords (s : List Byte) : Nat :=
  if (s.length + 1) % 4 ≠ 0 then (s.length + 1) / 4 + 1 else (s.length + 1) / 4

/-- image.cpp:90-96 (`GetSize`). -/
def strSize (s : List Byte) : Nat :=
  if (s.length + 1) % 4 ≠ 0 then (s.length + 1) / 4 + 2 else (s.length + 1) / 4 + 1

/-- image.cpp:98-105 (`Write`). -/
def writeStr (m : Mem) (a : Nat) (s : List Byte) : Option Mem := do
  let m ← store m a (BitVec.ofNat 32 (strSize s - 1))
  storeBytes m (4 * (a + 1)) (s ++ [0#8])

/-- image.cpp:107-117 (`Read`): **appends** to the string given by reference. -/
def readStr (m : Mem) (a : Nat) (s0 : List Byte) : Option (List Byte) :=
  (cstrAt m (a + 1)).map (s0 ++ ·)

/-! ## Object names (segments.cpp:405-458) -/

/-- `symbols_`: object identifier to name. The list is the iteration order of the unordered map. -/
abbrev Names := List (W × List Byte)

/-- segments.cpp:411-423: one entry per symbol. -/
def writeNames (m : Mem) (a : Nat) : Names → Option Mem
  | [] => some m
  | (oid, s) :: rest =>
    (store m a oid).bind fun m =>
    (store m (a + 1) (BitVec.ofNat 32 (strWords s))).bind fun m =>
    (storeBytes m (4 * (a + 2)) (s ++ [0#8])).bind fun m =>
    writeNames m (a + (strWords s + 2)) rest

/-- segments.cpp:405-424 (`ObjectNames::write`). -/
def Names.write (m : Mem) (b : Nat) (ns : Names) : Option Mem :=
  (store m b (BitVec.ofNat 32 ns.length)).bind (fun m => writeNames m (b + 1) ns)

/-- `symbols_[oid] = symbol` on the association list. -/
def insertName (ns : Names) (oid : W) (s : List Byte) : Names :=
  if ns.any (fun e => e.1 = oid) then ns.map (fun e => if e.1 = oid then (oid, s) else e)
  else ns ++ [(oid, s)]

/-- segments.cpp:430-438: the loop of `ObjectNames::read`. -/
def readNames (m : Mem) (a : Nat) (acc : Names) : Nat → Option Names
  | 0 => some acc
  | n + 1 =>
    (load m a).bind fun oid =>
    (load m (a + 1)).bind fun len =>
    (cstrAt m (a + 2)).bind fun s =>
    readNames m (a + (len.toNat + 2)) (insertName acc oid s) n

/-- segments.cpp:426-439 (`ObjectNames::read`, into an empty map). -/
def Names.read (m : Mem) (b : Nat) : Option Names :=
  (load m b).bind (fun n => readNames m (b + 1) [] n.toNat)

/-- segments.cpp:441-458 (`ObjectNames::get_size`). -/
def Names.size (ns : Names) : Nat := 1 + (ns.map (fun e => 2 + strWords e.2)).sum

/-! ## Images -/

/-- segments.h:177-200 (`r_comp::Image`): object map (16-bit indices), objects, names, time stamp. -/
structure Image where
  ts : BitVec 64
  map : List H
  objects : List SysObject
  names : Names
deriving DecidableEq, Repr

/-- Image.map_offset_ is kept beside the image (segments.cpp:484-489). -/
def addSysObject (im : Image × Nat) (o : SysObject) : Image × Nat :=
  ({ im.1 with objects := im.1.objects ++ [o], map := im.1.map ++ [BitVec.ofNat 16 im.2] },
   im.2 + o.size)

/-- segments.cpp:473-474 and 484-489: an image built by adding objects one after the other. -/
def build (ts : BitVec 64) (os : List SysObject) (names : Names) : Image :=
  { (os.foldl addSysObject ({ ts := ts, map := [], objects := [], names := [] }, 0)).1 with
    names := names }

/-- segments.cpp:363-371 (`CodeSegment::write`). -/
def writeObjects (m : Mem) (a : Nat) : List SysObject → Option Mem
  | [] => some m
  | o :: os => (o.write m a).bind (fun m' => writeObjects m' (a + o.size) os)

/-- segments.cpp:373-383 (`CodeSegment::read`): `offset` is a **uint16**. `base` is `data`. -/
def readObjects (m : Mem) (base : Nat) (offset : H) : Nat → Option (List SysObject)
  | 0 => some []
  | n + 1 => (SysObject.read m (base + offset.toNat)).bind (fun o =>
      (readObjects m base (offset + BitVec.ofNat 16 o.size) n).map (o :: ·))

/-- segments.cpp:385-391 (`CodeSegment::get_size`). -/
def codeSize (os : List SysObject) : Nat := (os.map SysObject.size).sum

/-- image_impl.{h,cpp}: what is in memory after serialisation. -/
structure RImage where
  ts : BitVec 64
  mapSize : W
  codeSize : W
  namesSize : W
  data : Mem
deriving DecidableEq, Repr

/-- segments.cpp:332-336 (`ObjectMap::shift`, called with `map_size` truncated to uint16). -/
def shift (offset : H) (l : List H) : List H := l.map (· + offset)

/-- segments.h:222-232 (`Image::serialize`). `buf` is the freshly allocated buffer, whose contents
are unspecified. Also returns the image, whose object map has been shifted. -/
def serialize (buf : Mem) (im : Image) : Option (RImage × Image) :=
  let ms := im.map.length
  let cs := codeSize im.objects
  let map' := shift (BitVec.ofNat 16 ms) im.map
  (storeList buf 0 (map'.map (BitVec.setWidth 32))).bind fun m =>
  (writeObjects m ms im.objects).bind fun m =>
  (Names.write m (ms + cs) im.names).bind fun m =>
  some (⟨im.ts, BitVec.ofNat 32 ms, BitVec.ofNat 32 cs, BitVec.ofNat 32 im.names.size, m⟩,
        { im with map := map' })

/-- segments.cpp:344-348 (`ObjectMap::read`): the loop counter is a uint16, so it never ends when
there are more than 65535 entries (the reads leave the buffer: `none`). -/
def readMap (m : Mem) (size : Nat) : Option (List H) :=
  if size < 65536 then (loadList m 0 size).map (List.map (BitVec.setWidth 16)) else none

/-- segments.h:234-241 (`Image::load`): the object count is passed as a uint16. -/
def loadImage (r : RImage) : Option Image :=
  (readMap r.data r.mapSize.toNat).bind fun map =>
  (readObjects r.data r.mapSize.toNat 0#16 (r.mapSize.setWidth 16).toNat).bind fun os =>
  (Names.read r.data (r.mapSize.toNat + r.codeSize.toNat)).bind fun ns =>
  some ⟨r.ts, map, os, ns⟩

/-- image.tpl.cpp:112-123 (`Image::Write`): the file as a sequence of words. -/
def fileWrite (r : RImage) : List W :=
  [r.ts.setWidth 32, (r.ts >>> 32).setWidth 32, r.mapSize, r.codeSize, r.namesSize] ++ r.data

/-- image.tpl.cpp:97-110 (`Image::Read`). `none`: the file is too short (the C++ would go on with
uninitialised data). -/
def fileRead : List W → Option RImage
  | lo :: hi :: ms :: cs :: ns :: rest =>
    let size := ms.toNat + cs.toNat + ns.toNat
    if size ≤ rest.length then
      some ⟨(hi.setWidth 64 <<< 32) ||| lo.setWidth 64, ms, cs, ns, rest.take size⟩
    else none
  | _ => none

/-! ## Class records -/

/-- structure_member.h (`StructureMember`): the reader id, the type, the class name, the iteration
mode, the member name. -/
structure Member where
  reader : W
  type : W
  cls : List Byte
  iter : W
  name : List Byte
deriving DecidableEq, Repr

/-- structure_member.cpp:199-205 (`StructureMember::get_size`). -/
def Member.size (x : Member) : Nat := 3 + strSize x.cls + strSize x.name

/-- structure_member.cpp:141-173 (`StructureMember::write`). The twelve reader functions and their
ids are in bijection; a reader is represented by its id. -/
def Member.write (m : Mem) (b : Nat) (x : Member) : Option Mem := do
  let m ← store m b x.reader
  let m ← store m (b + 1) x.type
  let m ← writeStr m (b + 2) x.cls
  let m ← store m (b + 2 + strSize x.cls) x.iter
  writeStr m (b + 2 + strSize x.cls + 1) x.name

/-- structure_member.cpp:175-197 (`StructureMember::read`, into a fresh member: empty strings). -/
def Member.read (m : Mem) (b : Nat) : Option Member := do
  let reader ← load m b
  let type ← load m (b + 1)
  let cls ← readStr m (b + 2) []
  let iter ← load m (b + 2 + strSize cls)
  let name ← readStr m (b + 2 + strSize cls + 1) []
  some ⟨reader, type, cls, iter, name⟩

/-- class.h:98-125 (`Class`). -/
structure Class where
  atom : W
  strOpcode : List Byte
  type : W
  useAs : W
  members : List Member
deriving DecidableEq, Repr

/-- class.cpp:197-204 (`Class::get_size`). -/
def Class.size (c : Class) : Nat := 4 + strSize c.strOpcode + (c.members.map Member.size).sum

def writeMembers (m : Mem) (a : Nat) : List Member → Option Mem
  | [] => some m
  | x :: xs => (x.write m a).bind (fun m' => writeMembers m' (a + x.size) xs)

def readMembers (m : Mem) (a : Nat) : Nat → Option (List Member)
  | 0 => some []
  | n + 1 => (Member.read m a).bind (fun x => (readMembers m (a + x.size) n).map (x :: ·))

/-- class.cpp:165-178 (`Class::write`). -/
def Class.write (m : Mem) (b : Nat) (c : Class) : Option Mem := do
  let m ← store m b c.atom
  let m ← writeStr m (b + 1) c.strOpcode
  let m ← store m (b + 1 + strSize c.strOpcode) c.type
  let m ← store m (b + 2 + strSize c.strOpcode) c.useAs
  let m ← store m (b + 3 + strSize c.strOpcode) (BitVec.ofNat 32 c.members.length)
  writeMembers m (b + 4 + strSize c.strOpcode) c.members

/-- class.cpp:180-195 (`Class::read`) into a class whose `str_opcode` is `s0`: the string is
appended to it and its size is taken from the result. -/
def Class.readInto (s0 : List Byte) (m : Mem) (b : Nat) : Option Class := do
  let atom ← load m b
  let s ← readStr m (b + 1) s0
  let type ← load m (b + 1 + strSize s)
  let useAs ← load m (b + 2 + strSize s)
  let n ← load m (b + 3 + strSize s)
  let members ← readMembers m (b + 4 + strSize s) n.toNat
  some ⟨atom, s, type, useAs, members⟩

/-- class.cpp:109: the default constructor sets `str_opcode` to "undefined". -/
def undefinedStr : List Byte := [117#8, 110#8, 100#8, 101#8, 102#8, 105#8, 110#8, 101#8, 100#8]

/-- segments.cpp:179-180 (`Class c; c.read(data + offset);` in `Metadata::read`). -/
def Class.read (m : Mem) (b : Nat) : Option Class := Class.readInto undefinedStr m b

end Verif.Image
