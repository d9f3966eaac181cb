import Verif.Atom.Model
/-!
# What a user can store in a code word, and how they read it back

`Val` enumerates the values a program can store through the `Atom` constructors (with the
argument types of the C++ signatures); `store` picks the constructor, `load` reads a word back
using only the public accessors.  `fit` is the documented field width (atom.h:98-101: opcodes and
indices on 12 bits, element counts on 8 bits; floats lose their last bit).

Node words are treated separately (property C05).
-/
namespace Verif.Atom

/-- The kinds of pointers with one 12-bit index. -/
inductive PtrKind | i | vl | r | ipgm | outObj | value | production
  deriving DecidableEq, Repr

/-- The kinds of structures with an opcode and an arity. -/
inductive StructKind
  | sset | object | marker | operator | ipgm | group | icpp | anti | inputLess | cst | mdl
  deriving DecidableEq, Repr

/-- Everything that can be stored. -/
inductive Val
  | number (ieee : BitVec 32)
  | nil | boolean (b : Bool) | wildcard (opcode : BitVec 16) | tailWildcard
  | pointer (k : PtrKind) (index : BitVec 16)
  | inObj (input : BitVec 8) (index : BitVec 16)
  | dInObj (rel : BitVec 8) (index : BitVec 16)
  | assignment (var : BitVec 8) (index : BitVec 16)
  | codeVL (index cast : BitVec 16)
  | this | view | mks | vws
  | device (node cls dev : BitVec 8)
  | deviceFunction (opcode : BitVec 16)
  | cPointer (count : BitVec 8) | set (count : BitVec 8)
  | struct_ (k : StructKind) (opcode : BitVec 16) (arity : BitVec 8)
  | string (chars : BitVec 8)
  | timestamp | duration | nullProgram (past : Bool)
  deriving DecidableEq, Repr

/-- The constructor for each value. -/
def store : Val → Word
  | .number f => float f
  | .nil => nil | .boolean b => boolean b | .wildcard o => wildcard o
  | .tailWildcard => tailWildcard
  | .pointer .i x => iPointer x | .pointer .vl x => vlPointer x | .pointer .r x => rPointer x
  | .pointer .ipgm x => ipgmPointer x | .pointer .outObj x => outObjPointer x
  | .pointer .value x => valuePointer x | .pointer .production x => productionPointer x
  | .inObj a x => inObjPointer a x | .dInObj a x => dInObjPointer a x
  | .assignment a x => assignmentPointer a x | .codeVL x c => codeVLPointer x c
  | .this => this | .view => view | .mks => mks | .vws => vws
  | .device a b c => device a b c | .deviceFunction o => deviceFunction o
  | .cPointer n => cPointer n | .set n => set n
  | .struct_ .sset o n => sSet o n | .struct_ .object o n => object o n
  | .struct_ .marker o n => marker o n | .struct_ .operator o n => operator o n
  | .struct_ .ipgm o n => instantiatedProgram o n | .struct_ .group o n => group o n
  | .struct_ .icpp o n => instantiatedCPPProgram o n
  | .struct_ .anti o n => instantiatedAntiProgram o n
  | .struct_ .inputLess o n => instantiatedInputLessProgram o n
  | .struct_ .cst o n => compositeState o n | .struct_ .mdl o n => model o n
  | .string n => string n
  | .timestamp => timestamp | .duration => duration | .nullProgram b => nullProgram b

/-- Reading a word back: numbers are recognised by `isFloat`, everything else by the descriptor,
and the fields come from the accessor documented for that kind (atom.h:245-272). -/
def load (a : Word) : Option Val :=
  if isFloat a then some (.number (asFloat a)) else
  match (getDescriptor a).toNat with
  | 0x80 => some .nil | 0x81 => some (.boolean (asBoolean a))
  | 0x82 => some (.wildcard (asOpcode a)) | 0x83 => some .tailWildcard
  | 0x84 => some (.pointer .i (asIndex a)) | 0x85 => some (.pointer .r (asIndex a))
  | 0x86 => some (.pointer .vl (asIndex a)) | 0x87 => some (.pointer .ipgm (asIndex a))
  | 0x88 => some (.inObj (asInputIndex a) (asIndex a))
  | 0x89 => some (.pointer .value (asIndex a))
  | 0x8A => some (.pointer .production (asIndex a))
  | 0x8B => some (.pointer .outObj (asIndex a))
  | 0x8C => some (.dInObj (asRelativeIndex a) (asIndex a))
  | 0x8D => some (.assignment (asAssignmentIndex a) (asIndex a))
  | 0x8E => some (.codeVL (asIndex a) (asCastOpcode a))
  | 0x90 => some .this | 0x91 => some .view | 0x92 => some .mks | 0x93 => some .vws
  | 0xA1 => some (.device (getNodeID a) (getClassID a) (getDeviceID a))
  | 0xA2 => some (.deviceFunction (asOpcode a))
  | 0xC0 => some (.cPointer (getAtomCount a)) | 0xC1 => some (.set (getAtomCount a))
  | 0xC2 => some (.struct_ .sset (asOpcode a) (getAtomCount a))
  | 0xC3 => some (.struct_ .object (asOpcode a) (getAtomCount a))
  | 0xC4 => some (.struct_ .marker (asOpcode a) (getAtomCount a))
  | 0xC5 => some (.struct_ .operator (asOpcode a) (getAtomCount a))
  | 0xC6 => some (.string (getDeviceID a)) -- utils.h:GetString reads the low byte
  | 0xC7 => some .timestamp
  | 0xC8 => some (.struct_ .group (asOpcode a) (getAtomCount a))
  | 0xC9 => some (.struct_ .ipgm (asOpcode a) (getAtomCount a))
  | 0xCA => some (.struct_ .icpp (asOpcode a) (getAtomCount a))
  | 0xCB => some (.struct_ .inputLess (asOpcode a) (getAtomCount a))
  | 0xCC => some (.struct_ .anti (asOpcode a) (getAtomCount a))
  | 0xCD => some (.struct_ .cst (asOpcode a) (getAtomCount a))
  | 0xCE => some (.struct_ .mdl (asOpcode a) (getAtomCount a))
  | 0xCF => some (.nullProgram (takesPastInputs a))
  | 0xD0 => some .duration
  | _ => none

/-- 12-bit truncation. -/
def low12 (x : BitVec 16) : BitVec 16 := BitVec.ofNat 16 (x.toNat % 4096)

/-- The value with each field reduced to its documented width. -/
def fit : Val → Val
  | .number f => .number (BitVec.ofNat 32 (f.toNat - f.toNat % 2))
  | .wildcard o => .wildcard (low12 o)
  | .pointer k x => .pointer k (low12 x)
  | .inObj a x => .inObj a (low12 x)
  | .dInObj a x => .dInObj a (low12 x)
  | .assignment a x => .assignment a (low12 x)
  | .codeVL x c => .codeVL (low12 x) (low12 c)
  | .deviceFunction o => .deviceFunction (low12 o)
  | .struct_ k o n => .struct_ k (low12 o) n
  | v => v

/-- All arguments are within their documented widths (and a number has its last bit clear). -/
def Fits : Val → Prop
  | .number f => f.toNat % 2 = 0
  | .wildcard o => o.toNat < 4096
  | .pointer _ x => x.toNat < 4096
  | .inObj _ x => x.toNat < 4096
  | .dInObj _ x => x.toNat < 4096
  | .assignment _ x => x.toNat < 4096
  | .codeVL x c => x.toNat < 4096 ∧ c.toNat < 4096
  | .deviceFunction o => o.toNat < 4096
  | .struct_ _ o _ => o.toNat < 4096
  | _ => True

end Verif.Atom
