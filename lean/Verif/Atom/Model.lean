/-!
# r_code::Atom: the 32-bit code word

Transcription of `/repo/r_code/atom.h` and `/repo/r_code/atom.inline.cpp`.

Simplifications: the C++ computes `T << 24` in `int` and converts to `uint32`; here all
arithmetic is directly modulo 2^32 (`BitVec 32`), which is what the conversion yields.
`RawPointer`/`asRawPointer` (only compiled for ARCH_32, unused) and `trace` are not modelled.
-/
namespace Verif.Atom

/-- `uint32 Atom::atom_` (atom.h:242). -/
abbrev Word := BitVec 32

/-- `Atom::Type` (atom.h:125-165): the numeric value of each descriptor. -/
inductive Ty
  | NIL | BOOLEAN_ | WILDCARD | T_WILDCARD | I_PTR | R_PTR | VL_PTR | IPGM_PTR | IN_OBJ_PTR
  | VALUE_PTR | PROD_PTR | OUT_OBJ_PTR | D_IN_OBJ_PTR | ASSIGN_PTR | CODE_VL_PTR | THIS | VIEW
  | MKS | VWS | NODE | DEVICE | DEVICE_FUNCTION | C_PTR | SET | S_SET | OBJECT | MARKER
  | OPERATOR | STRING | TIMESTAMP | GROUP | INSTANTIATED_PROGRAM | INSTANTIATED_CPP_PROGRAM
  | INSTANTIATED_INPUT_LESS_PROGRAM | INSTANTIATED_ANTI_PROGRAM | COMPOSITE_STATE | MODEL
  | NULL_PROGRAM | DURATION
  deriving DecidableEq, Repr

/-- atom.h:125-165. -/
def Ty.code : Ty → BitVec 32
  | NIL => 0x80 | BOOLEAN_ => 0x81 | WILDCARD => 0x82 | T_WILDCARD => 0x83 | I_PTR => 0x84
  | R_PTR => 0x85 | VL_PTR => 0x86 | IPGM_PTR => 0x87 | IN_OBJ_PTR => 0x88 | VALUE_PTR => 0x89
  | PROD_PTR => 0x8A | OUT_OBJ_PTR => 0x8B | D_IN_OBJ_PTR => 0x8C | ASSIGN_PTR => 0x8D
  | CODE_VL_PTR => 0x8E | THIS => 0x90 | VIEW => 0x91 | MKS => 0x92 | VWS => 0x93 | NODE => 0xA0
  | DEVICE => 0xA1 | DEVICE_FUNCTION => 0xA2 | C_PTR => 0xC0 | SET => 0xC1 | S_SET => 0xC2
  | OBJECT => 0xC3 | MARKER => 0xC4 | OPERATOR => 0xC5 | STRING => 0xC6 | TIMESTAMP => 0xC7
  | GROUP => 0xC8 | INSTANTIATED_PROGRAM => 0xC9 | INSTANTIATED_CPP_PROGRAM => 0xCA
  | INSTANTIATED_INPUT_LESS_PROGRAM => 0xCB | INSTANTIATED_ANTI_PROGRAM => 0xCC
  | COMPOSITE_STATE => 0xCD | MODEL => 0xCE | NULL_PROGRAM => 0xCF | DURATION => 0xD0

/-- `T << 24` (all encoders). -/
def tag (t : Ty) : Word := t.code <<< 24

/-- uint8 argument promoted to 32 bits. -/
def u8 (b : BitVec 8) : Word := b.setWidth 32
/-- uint16 argument promoted to 32 bits. -/
def u16 (b : BitVec 16) : Word := b.setWidth 32

/-! ### Encoders -/

/-- `Atom::Float` (atom.inline.cpp:88-93); the argument is the IEEE bit pattern. -/
def float (bits : BitVec 32) : Word := bits >>> 1
/-- atom.inline.cpp:95-98. -/
def plusInfinity : Word := 0x3FC00000
/-- atom.inline.cpp:100-103. -/
def minusInfinity : Word := 0x7FC00000
/-- atom.inline.cpp:105-108 (sic: seven F digits). -/
def undefinedFloat : Word := 0xFFFFFFF
/-- atom.inline.cpp:110-113. -/
def nil : Word := tag .NIL
/-- atom.inline.cpp:115-118. -/
def boolean (b : Bool) : Word := tag .BOOLEAN_ + (if b then 1 else 0)
/-- atom.inline.cpp:120-123. -/
def undefinedBoolean : Word := 0x81FFFFFF
/-- atom.inline.cpp:125-128. -/
def wildcard (opcode : BitVec 16) : Word := tag .WILDCARD + ((u16 opcode &&& 0x0FFF) <<< 8)
/-- atom.inline.cpp:130-133. -/
def tailWildcard : Word := tag .T_WILDCARD
/-- The common body `(T << 24) + (index & 0x0FFF)` of `IPointer`, `VLPointer`, `RPointer`,
`IPGMPointer` (atom.inline.cpp:135-153) and `OutObjPointer`, `ValuePointer`,
`ProductionPointer` (165-178). -/
def ptr (t : Ty) (index : BitVec 16) : Word := tag t + (u16 index &&& 0x0FFF)
/-- atom.inline.cpp:135-138. -/
def iPointer (index : BitVec 16) : Word := ptr .I_PTR index
/-- atom.inline.cpp:140-143. -/
def vlPointer (index : BitVec 16) : Word := ptr .VL_PTR index
/-- atom.inline.cpp:145-148. -/
def rPointer (index : BitVec 16) : Word := ptr .R_PTR index
/-- atom.inline.cpp:150-153. -/
def ipgmPointer (index : BitVec 16) : Word := ptr .IPGM_PTR index
/-- atom.inline.cpp:155-158. -/
def inObjPointer (input : BitVec 8) (index : BitVec 16) : Word :=
  tag .IN_OBJ_PTR + (u8 input <<< 12) + (u16 index &&& 0x0FFF)
/-- atom.inline.cpp:160-163. -/
def dInObjPointer (rel : BitVec 8) (index : BitVec 16) : Word :=
  tag .D_IN_OBJ_PTR + (u8 rel <<< 12) + (u16 index &&& 0x0FFF)
/-- atom.inline.cpp:165-168. -/
def outObjPointer (index : BitVec 16) : Word := ptr .OUT_OBJ_PTR index
/-- atom.inline.cpp:170-173. -/
def valuePointer (index : BitVec 16) : Word := ptr .VALUE_PTR index
/-- atom.inline.cpp:175-178. -/
def productionPointer (index : BitVec 16) : Word := ptr .PROD_PTR index
/-- atom.inline.cpp:180-183. -/
def assignmentPointer (var : BitVec 8) (index : BitVec 16) : Word :=
  tag .ASSIGN_PTR + (u8 var <<< 16) + (u16 index &&& 0x0FFF)
/-- atom.inline.cpp:185-188. -/
def codeVLPointer (index castOpcode : BitVec 16) : Word :=
  tag .CODE_VL_PTR + ((u16 castOpcode &&& 0x0FFF) <<< 12) + (u16 index &&& 0x0FFF)
/-- atom.inline.cpp:190-193. -/
def this : Word := tag .THIS
/-- atom.inline.cpp:195-198. -/
def view : Word := tag .VIEW
/-- atom.inline.cpp:200-203. -/
def mks : Word := tag .MKS
/-- atom.inline.cpp:205-208. -/
def vws : Word := tag .VWS
/-- The common body `(T << 24) + ((opcode & 0x0FFF) << 8) + arity` of `SSet`
(atom.inline.cpp:210-213), `Object`, `Marker`, `Operator` (225-238), `InstantiatedProgram`,
`Group`, `InstantiatedCPPProgram`, `InstantiatedAntiProgram`, `InstantiatedInputLessProgram`,
`CompositeState`, `Model` (297-330). -/
def struct_ (t : Ty) (opcode : BitVec 16) (arity : BitVec 8) : Word :=
  tag t + ((u16 opcode &&& 0x0FFF) <<< 8) + u8 arity
/-- atom.inline.cpp:210-213. -/
def sSet := struct_ .S_SET
/-- atom.inline.cpp:225-228. -/
def object := struct_ .OBJECT
/-- atom.inline.cpp:230-233. -/
def marker := struct_ .MARKER
/-- atom.inline.cpp:235-238. -/
def operator := struct_ .OPERATOR
/-- atom.inline.cpp:297-300. -/
def instantiatedProgram := struct_ .INSTANTIATED_PROGRAM
/-- atom.inline.cpp:302-305. -/
def group := struct_ .GROUP
/-- atom.inline.cpp:307-310. -/
def instantiatedCPPProgram := struct_ .INSTANTIATED_CPP_PROGRAM
/-- atom.inline.cpp:312-315. -/
def instantiatedAntiProgram := struct_ .INSTANTIATED_ANTI_PROGRAM
/-- atom.inline.cpp:317-320. -/
def instantiatedInputLessProgram := struct_ .INSTANTIATED_INPUT_LESS_PROGRAM
/-- atom.inline.cpp:322-325. -/
def compositeState := struct_ .COMPOSITE_STATE
/-- atom.inline.cpp:327-330. -/
def model := struct_ .MODEL
/-- atom.inline.cpp:215-218. -/
def set (count : BitVec 8) : Word := tag .SET + u8 count
/-- atom.inline.cpp:220-223. -/
def cPointer (count : BitVec 8) : Word := tag .C_PTR + u8 count
/-- atom.inline.cpp:240-243. -/
def node (nodeId : BitVec 8) : Word := tag .NODE + (u8 nodeId <<< 8)
/-- atom.inline.cpp:245-248. -/
def undefinedNode : Word := 0xA0FFFFFF
/-- atom.inline.cpp:250-253. -/
def device (nodeId classId devId : BitVec 8) : Word :=
  tag .DEVICE + (u8 nodeId <<< 16) + (u8 classId <<< 8) + u8 devId
/-- atom.inline.cpp:255-258. -/
def undefinedDevice : Word := 0xA1FFFFFF
/-- atom.inline.cpp:260-263 (the opcode is not masked). -/
def deviceFunction (opcode : BitVec 16) : Word := tag .DEVICE_FUNCTION + (u16 opcode <<< 8)
/-- atom.inline.cpp:265-268. -/
def undefinedDeviceFunction : Word := 0xA2FFFFFF
/-- atom.inline.cpp:270-276: `uint8 blocks = cc/4; if (cc%4) ++blocks`. -/
def stringBlocks (cc : BitVec 8) : BitVec 8 := if cc % 4 = 0 then cc / 4 else cc / 4 + 1
/-- atom.inline.cpp:270-276. -/
def string (cc : BitVec 8) : Word := tag .STRING + (u8 (stringBlocks cc) <<< 8) + u8 cc
/-- atom.inline.cpp:278-281. -/
def undefinedString : Word := 0xC6FFFFFF
/-- atom.inline.cpp:283-286. -/
def timestamp : Word := tag .TIMESTAMP
/-- atom.inline.cpp:288-291. -/
def undefinedTimestamp : Word := 0xC7FFFFFF
/-- atom.inline.cpp:293-295. -/
def duration : Word := tag .DURATION
/-- atom.inline.cpp:332-335. -/
def nullProgram (takePastInputs : Bool) : Word :=
  tag .NULL_PROGRAM + (if takePastInputs then 1 else 0)
/-- Default constructor `Atom(uint32 a = 0xFFFFFFFF)` (atom.h:231). -/
def default : Word := 0xFFFFFFFF

/-! ### Decoders -/

/-- atom.inline.cpp:378-381. -/
def isUndefined (a : Word) : Bool := a == 0xFFFFFFFF
/-- atom.inline.cpp:383-386 (returned as `uint8`). -/
def getDescriptor (a : Word) : BitVec 8 := (a >>> 24).setWidth 8
/-- atom.inline.cpp:388-391. -/
def isStructural (a : Word) : Bool :=
  (a &&& 0xC0000000) == 0xC0000000 || (a &&& 0xD0000000) == 0xD0000000
/-- atom.inline.cpp:393-396. -/
def isFloat (a : Word) : Bool := a >>> 31 == 0
/-- atom.inline.cpp:398-408. -/
def readsAsNil (a : Word) : Bool :=
  a == 0x80000000 || a == 0x3FFFFFFF || a == 0x81FFFFFF || a == 0xC1000000 ||
  a == 0xA0FFFFFF || a == 0xA1FFFFFF || a == 0xA2FFFFFF || a == 0xC6FFFFFF
/-- atom.inline.cpp:410-414; the result is the IEEE bit pattern. -/
def asFloat (a : Word) : BitVec 32 := a <<< 1
/-- atom.inline.cpp:416-419. -/
def asBoolean (a : Word) : Bool := (a &&& 0xFF) != 0
/-- atom.inline.cpp:421. -/
def isBooleanTrue (a : Word) : Bool := getDescriptor a == 0x81 && asBoolean a
/-- atom.inline.cpp:423. -/
def isBooleanFalse (a : Word) : Bool := getDescriptor a == 0x81 && !asBoolean a
/-- atom.inline.cpp:425-428. -/
def asIndex (a : Word) : BitVec 16 := (a &&& 0x00000FFF).setWidth 16
/-- atom.inline.cpp:430-433. -/
def asInputIndex (a : Word) : BitVec 8 := ((a &&& 0x000FF000) >>> 12).setWidth 8
/-- atom.inline.cpp:435-438. -/
def asRelativeIndex (a : Word) : BitVec 8 := ((a &&& 0x000FF000) >>> 12).setWidth 8
/-- atom.inline.cpp:440-443. -/
def asOpcode (a : Word) : BitVec 16 := ((a >>> 8) &&& 0x00000FFF).setWidth 16
/-- atom.inline.cpp:445-448. -/
def asCastOpcode (a : Word) : BitVec 16 := ((a &&& 0x00FFF000) >>> 12).setWidth 16
/-- atom.inline.cpp:450-453. -/
def getNodeID (a : Word) : BitVec 8 := ((a &&& 0x00FF0000) >>> 16).setWidth 8
/-- atom.inline.cpp:455-458. -/
def getClassID (a : Word) : BitVec 8 := ((a &&& 0x0000FF00) >>> 8).setWidth 8
/-- atom.inline.cpp:460-463. -/
def getDeviceID (a : Word) : BitVec 8 := (a &&& 0x000000FF).setWidth 8
/-- atom.inline.cpp:465-468. -/
def asAssignmentIndex (a : Word) : BitVec 8 := ((a &&& 0x00FF0000) >>> 16).setWidth 8
/-- atom.inline.cpp:470-492. -/
def getAtomCount (a : Word) : BitVec 8 :=
  let d := getDescriptor a
  if d = 0xC1 ∨ d = 0xC3 ∨ d = 0xC4 ∨ d = 0xC0 ∨ d = 0xC5 ∨ d = 0xC9 ∨ d = 0xCA ∨ d = 0xCB ∨
     d = 0xCC ∨ d = 0xCD ∨ d = 0xCE ∨ d = 0xC8 ∨ d = 0xC2 then (a &&& 0x000000FF).setWidth 8
  else if d = 0xC6 then ((a &&& 0x0000FF00) >>> 8).setWidth 8
  else if d = 0xC7 then 2
  else if d = 0xD0 then 2
  else 0
/-- atom.inline.cpp:494-497. -/
def takesPastInputs (a : Word) : Bool := (a &&& 1) != 0

end Verif.Atom
