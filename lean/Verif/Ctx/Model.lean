import Verif.Atom.Props
/-!
# Values in programs: following pointers, comparing, matching, copying

Transcription of `IPGMContext::dereference` (`/repo/r_exec/context.cpp:173-243`), `operator ==`
(context.cpp:95-116), `match` (context.cpp:123-163), and of `addReference`, `copy_structure`, `copy_member`
(`/repo/r_exec/context.h:110-122, 131-323`).

Simplifications: expressions are taken to be evaluated, that is, operators have been replaced by their
values; views, markers and sets of views are not described; copying is described for objects that are not
programs (`pgm_index` is -1) outside of mod and set (`dereference_cptr` is true). Functions take a bound
on the depth of recursion. `none` stands for undefined behaviour, what is not described, and recursion
beyond the bound.
-/
namespace Verif.Ctx
open Verif.Atom

/-- What the code distinguishes by the descriptor of a word (atom.h:125-165). -/
inductive Kind
  | iptr (k : Nat)
  | rptr (k : Nat)
  | ipgm (k : Nat)
  | inobj (input k : Nat)
  | dinobj (rel k : Nat)
  | value (k : Nat)
  | prod (k : Nat)
  | codevl (k : Nat)
  | this
  | cptr (n : Nat)
  /-- views, markers, and pointers to objects being built -/
  | special
  | wild
  /-- timestamps, durations, strings: raw words follow -/
  | raw (n : Nat)
  | op
  /-- objects, sets, ... -/
  | struct (n : Nat)
  | atom
deriving DecidableEq, Repr

/-- The kind for a descriptor, an index, an input index and a number of atoms. -/
def kindOf (d k a n : Nat) : Kind :=
  if d = 0x84 then .iptr k
  else if d = 0x85 then .rptr k
  else if d = 0x87 then .ipgm k
  else if d = 0x88 then .inobj a k
  else if d = 0x8C then .dinobj a k
  else if d = 0x89 then .value k
  else if d = 0x8A then .prod k
  else if d = 0x8E then .codevl k
  else if d = 0x90 then .this
  else if d = 0x8B ∨ d = 0x91 ∨ d = 0x92 ∨ d = 0x93 then .special
  else if d = 0x82 ∨ d = 0x83 then .wild
  else if d = 0xC0 then .cptr n
  else if d = 0xC6 ∨ d = 0xC7 ∨ d = 0xD0 then .raw n
  else if d = 0xC5 then .op
  else if 0xC0 ≤ d then .struct n
  else .atom

/-- The kind of a word, by its descriptor (`asInputIndex` and `asRelativeIndex` are the same bits,
atom.inline.cpp:430-438). -/
def kind (w : Word) : Kind := kindOf (getDescriptor w).toNat (asIndex w).toNat (asInputIndex w).toNat (getAtomCount w).toNat

/-- Where the word of a context is: the code of the program (`STEM`), the values (`VALUE_ARRAY`), the code of an
object (`REFERENCE`). -/
inductive Space
  | stem
  | val
  | obj (o : Nat)
deriving DecidableEq, Repr

/-- An `IPGMContext`. -/
structure Ctx where
  sp : Space
  i : Nat
deriving DecidableEq, Repr

/-- `get_child` (context.h:403-440). -/
def Ctx.child (c : Ctx) (k : Nat) : Ctx := ⟨c.sp, c.i + k⟩

/-- The context is the head of an object. -/
def Ctx.head (c : Ctx) : Bool :=
  match c.sp with
  | .obj _ => c.i == 0
  | _ => false

structure Obj where
  code : Nat → Option Word
  refs : List Nat

/-- What a program sees. -/
structure Mem where
  objs : Nat → Obj
  stem : Nat → Option Word
  values : Nat → Option Word
  /-- the program, its instance -/
  pgm : Nat
  ipgm : Nat
  inputs : List Nat
  prods : List Nat

def Mem.word (m : Mem) (c : Ctx) : Option Word :=
  match c.sp with
  | .stem => m.stem c.i
  | .val => m.values c.i
  | .obj o => (m.objs o).code c.i

/-- `get_object` (context.h:452). -/
def Mem.object (m : Mem) (c : Ctx) : Nat :=
  match c.sp with
  | .obj o => o
  | _ => m.pgm

/-- The kind of the word at a context. -/
def Mem.at (m : Mem) (c : Ctx) : Option Kind := (m.word c).map kind

/-- The indices of a chain of pointers (context.cpp:203-222); names of views and markers are not
described. -/
def chain (m : Mem) (c : Ctx) : (i n : Nat) → Option (List Nat)
  | _, 0 => some []
  | i, n + 1 =>
    match m.word (c.child i) with
    | none => none
    | some w => if kind w = .special then none else (chain m c (i + 1) n).map ((asIndex w).toNat :: ·)

/-- `get_child_deref` along a path. -/
def along (f : Ctx → Option Ctx) : Ctx → List Nat → Option Ctx
  | c, [] => f c
  | c, k :: ks =>
    match f c with
    | none => none
    | some d => along f (d.child k) ks

/-- `dereference` (context.cpp:173-243). -/
def deref (m : Mem) : Nat → Ctx → Option Ctx
  | 0, _ => none
  | n + 1, c =>
    match m.at c with
    | none => none
    | some (.iptr k) => deref m n ⟨c.sp, k⟩
    | some (.rptr k) => ((m.objs (m.object c)).refs[k]?).map fun o => ⟨.obj o, 0⟩
    | some (.ipgm k) => deref m n ⟨.obj m.ipgm, k⟩
    | some (.inobj a k) => (m.inputs[a]?).bind fun o => deref m n ⟨.obj o, k⟩
    | some (.dinobj r k) => (deref m n ⟨c.sp, r⟩).bind fun p => deref m n ⟨.obj (m.object p), k⟩
    | some (.value k) => if c.sp = .stem ∨ c.sp = .val then some ⟨.val, k⟩ else none
    | some (.prod k) => (m.prods[k]?).map fun o => ⟨.obj o, 0⟩
    | some (.codevl k) =>
      match m.at ⟨c.sp, k⟩ with
      | none => none
      | some (.iptr j) =>
        match m.at ⟨c.sp, j⟩ with
        | some (.struct _) => some ⟨c.sp, j⟩
        | some (.raw _) => some ⟨c.sp, j⟩
        | some (.cptr _) => some ⟨c.sp, j⟩
        | some .op => none
        | _ => deref m n ⟨c.sp, k⟩
      | some (.struct _) => none
      | some (.raw _) => none
      | some .op => none
      | some (.cptr _) => none
      | _ => deref m n ⟨c.sp, k⟩
    | some .this => some ⟨.obj m.ipgm, 0⟩
    | some (.cptr k) => (chain m c 2 (k - 1)).bind fun ks => along (deref m n) (c.child 1) ks
    | some .special => none
    | _ => some c

/-- A loop over members: stops at the first that is not equal. -/
def every (f : Nat → Option Bool) : (i n : Nat) → Option Bool
  | _, 0 => some true
  | i, n + 1 =>
    match f i with
    | some true => every f (i + 1) n
    | r => r

/-- `operator ==` (context.cpp:95-116). -/
def equ (m : Mem) : Nat → Ctx → Ctx → Option Bool
  | 0, _, _ => none
  | n + 1, c, d =>
    (deref m n c).bind fun l => (deref m n d).bind fun r =>
      if l.head && r.head then some (l.sp == r.sp)
      else (m.word l).bind fun a => (m.word r).bind fun b =>
        if a ≠ b then some false
        else if isStructural a then
          every (fun i => (deref m n (l.child i)).bind fun x => (deref m n (r.child i)).bind fun y => equ m n x y) 1 (getAtomCount a).toNat
        else some true

/-- The head of a structure without its last three bits (context.cpp:139). -/
def masked (w : Word) : Nat := w.toNat / 8

/-- `match` (context.cpp:123-163). -/
def mat (m : Mem) : Nat → Ctx → Ctx → Option Bool
  | 0, _, _ => none
  | n + 1, p, x =>
    if p.head && x.head then some (p.sp == x.sp)
    else (m.word p).bind fun a => (m.word x).bind fun b =>
      if isStructural a then
        if getAtomCount b ≠ getAtomCount a then some false
        else if masked a ≠ masked b then some false
        else every (fun i => (deref m n (p.child i)).bind fun y => (deref m n (x.child i)).bind fun z => mat m n y z) 1 (getAtomCount a).toNat
      else match kind a with
        | .wild => some true
        | .ipgm _ => (deref m n p).bind fun q => mat m n q x
        | _ => some (a == b)

/-! ## Copying -/

/-- The object being built. -/
abbrev Dest := Obj

def Obj.put (d : Dest) (w : Nat) (x : Word) : Dest := { d with code := fun i => if i = w then some x else d.code i }

/-- `addReference` (context.h:110-122): the references of an object differ. -/
def Obj.addRef (d : Dest) (w o : Nat) : Dest :=
  match d.refs.idxOf? o with
  | some i => d.put w (rPointer i)
  | none => { d with refs := d.refs ++ [o] }.put w (rPointer d.refs.length)

/-- A loop over members that writes: `f i d e` is given the object and the extent. -/
def each (f : Nat → Dest → Nat → Option (Dest × Nat)) : (i n : Nat) → Dest → Nat → Option (Dest × Nat)
  | _, 0, d, e => some (d, e)
  | i, n + 1, d, e => (f i d e).bind fun r => each f (i + 1) n r.1 r.2

/-- Words copied as they are (context.h:171-180). -/
def verbatim (m : Mem) (c : Ctx) (w : Nat) (i : Nat) (d : Dest) (e : Nat) : Option (Dest × Nat) :=
  (m.word (c.child i)).map fun x => (d.put (w + i) x, e)

/-- `copy_structure` (context.h:131-209), given how members are copied: at `w`, into `d`. -/
def copyStruct (m : Mem) (member : Ctx → Nat → Dest → Nat → Option (Dest × Nat)) (c : Ctx) (w : Nat) (d : Dest) : Option (Dest × Nat) :=
  (m.word c).bind fun h =>
    let n := (getAtomCount h).toNat
    let d := d.put w h
    let e := w + 1 + n
    match kind h with
    | .cptr _ => none
    | .op => none
    | .raw _ =>
      if h.toNat / 16777216 = 0xC6 then each (fun i d e => member (c.child i) (w + i) d e) 1 n d e
      else each (verbatim m c w) 1 n d e
    | _ => each (fun i d e => member (c.child i) (w + i) d e) 1 n d e

/-- A structure at the extent, and a pointer to it. -/
def nested (m : Mem) (member : Ctx → Nat → Dest → Nat → Option (Dest × Nat)) (c : Ctx) (w : Nat) (d : Dest) (e : Nat) : Option (Dest × Nat) :=
  copyStruct m member c e (d.put w (iPointer e))

/-- What a context stands for is copied (context.h:242-249): structures at the extent. -/
def place (m : Mem) (member : Ctx → Nat → Dest → Nat → Option (Dest × Nat)) (q : Ctx) (w : Nat) (d : Dest) (e : Nat) : Option (Dest × Nat) :=
  (m.word q).bind fun a => if isStructural a then nested m member q w d e else some (d.put w a, e)

/-- Pointers into the code, to values, to arguments (context.h:218-251); the word they are taken to point to is
read, from the array they are in. -/
def pointer (m : Mem) (member : Ctx → Nat → Dest → Nat → Option (Dest × Nat)) (q : Option Ctx) (c : Ctx) (k w : Nat) (d : Dest) (e : Nat) :
    Option (Dest × Nat) :=
  if c.head then some (d.addRef w (m.object c), e)
  else if (m.word ⟨c.sp, k⟩).isNone then none
  else q.bind fun q => place m member q w d e

/-- Variables that stand for a part of an input (context.h:266-279). -/
def part (m : Mem) (member : Ctx → Nat → Dest → Nat → Option (Dest × Nat)) (q : Option Ctx) (w : Nat) (d : Dest) (e : Nat) :
    Option (Dest × Nat) :=
  q.bind fun q => if q.i = 0 then some (d.addRef w (m.object q), e) else
    (m.word q).bind fun x => if isStructural x then nested m member q w d e else member q w d e

/-- `copy_member` (context.h:211-323): the member at `c` is copied to `w`, its parts from `e` on. -/
def copyMember (m : Mem) : Nat → Ctx → Nat → Dest → Nat → Option (Dest × Nat)
  | 0, _, _, _, _ => none
  | n + 1, c, w, d, e =>
    (m.word c).bind fun a =>
      match kind a with
      | .iptr k => pointer m (copyMember m n) (deref m n c) c k w d e
      | .value k => pointer m (copyMember m n) (deref m n c) c k w d e
      | .ipgm k => pointer m (copyMember m n) (deref m n c) c k w d e
      | .codevl k =>
        match m.at ⟨c.sp, k⟩ with
        | none => none
        | some (.prod j) => (m.prods[j]?).map fun o => (d.addRef w o, e)
        | some (.iptr j) =>
          match m.at ⟨c.sp, j⟩ with
          | none => none
          | some (.inobj b _) => (m.inputs[b]?).map fun o => (d.addRef w o, e)
          | _ => (deref m n c).bind fun q => copyMember m n q w d e
        | some (.inobj _ _) => part m (copyMember m n) (deref m n c) w d e
        | some (.dinobj _ _) => part m (copyMember m n) (deref m n c) w d e
        | some .special => none
        | _ => (deref m n c).bind fun q => copyMember m n q w d e
      | .rptr k => ((m.objs (m.object c)).refs[k]?).map fun o => (d.addRef w o, e)
      | .prod k => (m.prods[k]?).map fun o => (d.addRef w o, e)
      | .inobj _ k => (m.inputs[k]?).map fun o => (d.addRef w o, e)
      | .dinobj _ _ => (deref m n c).map fun q => (d.addRef w (m.object q), e)
      | .struct _ => nested m (copyMember m n) c w d e
      | .raw _ => nested m (copyMember m n) c w d e
      | .op => none
      | .special => none
      | .this => some (d.put w a, e)
      | .cptr _ => some (d.put w a, e)
      | .wild => some (d.put w a, e)
      | .atom => some (d.put w a, e)

/-- `copy`: an object built from a structure (context.h:465-469, pgm_overlay.cpp:260-267). -/
def build (m : Mem) (n : Nat) (c : Ctx) : Option Dest :=
  (copyStruct m (copyMember m n) c 0 ⟨fun _ => none, []⟩).map (·.1)

end Verif.Ctx
