import Verif.Meta.Model
import Verif.Image.Props
/-!
# What is wanted of metadata (C174)
-/
namespace Verif.Meta

open Verif.Image

/-- Operators and device functions have opcodes of their own (atom.h:147, 153; preprocessor.cpp:1393-1417). -/
def IsOp (c : Class) : Prop := c.atom >>> 24 = 0xC5#32 ∨ c.atom >>> 24 = 0xA2#32

/-- The number of a class: bits 8 to 19 of its atom (atom.inline.cpp:225-228). -/
def number (c : Class) : Nat := c.atom.toNat / 256 % 4096

/-- No strings with NUL in them; names are distinct in the maps. -/
structure Meta.WF (x : Meta) : Prop where
  byOp : ∀ c ∈ x.byOp, c.WF
  entries : ∀ e ∈ x.classes ++ x.sys, (0#8) ∉ e.1
  names : ∀ s ∈ x.classNames ++ x.opNames ++ x.fnNames, (0#8) ∉ s
  keys : (x.classes.map Prod.fst).Nodup
  sysKeys : (x.sys.map Prod.fst).Nodup

/-- As the preprocessor makes it: classes are in the array at their opcode, operators and functions are not in the array. -/
structure Meta.Made (x : Meta) : Prop where
  classes : ∀ e ∈ x.classes, x.byOp[number e.2]? = some e.2 ∨ IsOp e.2
  sys : ∀ e ∈ x.sys, x.byOp[number e.2]? = some e.2

/-- Writing succeeds in any buffer that has room for `get_size` words, and changes no other word. -/
def Fits (x : Meta) (m : Mem) (b : Nat) (m' : Mem) : Prop :=
  x.write m b = some m' ∧ ∀ a, a < b ∨ b + x.size ≤ a → m'[a]? = m[a]?

/-- C174: metadata that has been written is read back as it was. -/
def C174_full : Prop :=
  ∀ (x : Meta), x.WF → x.Made → ∀ (m : Mem) (b : Nat), b + x.size ≤ m.length → ∃ m', Fits x m b m' ∧ Meta.read m' b = some x

/-- All the entries of the maps are in the array. -/
def Meta.NoOps (x : Meta) : Prop := ∀ e ∈ x.classes ++ x.sys, x.byOp[number e.2]? = some e.2

end Verif.Meta
