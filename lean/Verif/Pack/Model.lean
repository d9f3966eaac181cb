import Verif.Match.Model
/-!
# Packing and unpacking of models and composite states

Transcription of `_Mem::unpack_hlp`, `unpack_fact`, `unpack_fact_object`, `_unpack_code`, `pack_hlp`,
`pack_fact`, `pack_fact_object` (`/repo/r_exec/mem.cpp:1154-1384`).

An unpacked model refers to its patterns (facts) as objects; a packed one has the code of the facts
and of their contents inserted between the set of patterns and the guards.

Simplifications: writes to consecutive positions are given as the list of the words written; the
shift of the trailing code within one array is given as a new list.  Packing is only described for
models whose guards directly follow the set of patterns (`none` otherwise).  Indices are natural
numbers, except in the words.  `none` also stands for reading outside an object.  The hidden reference
that packing and unpacking append is not part of the result of packing, and is the result of unpacking.
-/
namespace Verif.Pack
open Verif.Atom Verif.Words Verif.Match

/-- `Atom::IPointer(n)`. -/
def ip (n : Nat) : Word := iPointer (BitVec.ofNat 16 n)
/-- `Atom::RPointer(n)`. -/
def rp (n : Nat) : Word := rPointer (BitVec.ofNat 16 n)
/-- `asIndex()`. -/
def ix (w : Word) : Nat := (asIndex w).toNat
/-- `getAtomCount()`. -/
def count (w : Word) : Nat := (getAtomCount w).toNat
/-- ASSIGN_PTR. -/
def isAssign (w : Word) : Bool := getDescriptor w == 0x8D

/-! ## Packing -/

/-- The loop of `pack_fact_object` (mem.cpp:1353-1383) over the remaining words: the words written,
and the references of the model. -/
def packObjWords (off : Nat) (orefs : List Nat) : List Word → List Nat → Option (List Word × List Nat)
  | [], refs => some ([], refs)
  | w :: ws, refs =>
    if isRPtr w then
      match orefs[ix w]? with
      | none => none
      | some r =>
        match refs.idxOf? r with
        | some i => match packObjWords off orefs ws refs with
          | none => none
          | some (l, refs') => some (rp i :: l, refs')
        | none => match packObjWords off orefs ws (refs ++ [r]) with
          | none => none
          | some (l, refs') => some (rp refs.length :: l, refs')
    else if isIPtr w then
      match packObjWords off orefs ws refs with
      | none => none
      | some (l, refs') => some (ip (off + ix w) :: l, refs')
    else
      match packObjWords off orefs ws refs with
      | none => none
      | some (l, refs') => some (w :: l, refs')

/-- The loop of `pack_fact` (mem.cpp:1329-1343) over the remaining words; `ext` is `extent_index`.
The words of the fact, the words of the contents, the references. -/
def packFactWords (h : Heap) (frefs : List Nat) : Nat → List Word → List Nat →
    Option (List Word × List Word × List Nat)
  | _, [], refs => some ([], [], refs)
  | ext, w :: ws, refs =>
    if isRPtr w then
      match (frefs[ix w]?).bind h with
      | none => none
      | some o => match packObjWords ext o.refs o.code refs with
        | none => none
        | some (ow, refs1) => match packFactWords h frefs (ext + o.code.length) ws refs1 with
          | none => none
          | some (hs, bs, refs2) => some (ip ext :: hs, ow ++ bs, refs2)
    else
      match packFactWords h frefs ext ws refs with
      | none => none
      | some (hs, bs, refs2) => some (w :: hs, bs, refs2)

/-- The loop over the patterns (mem.cpp:1283-1288): the positions of the facts, the inserted code,
the references. -/
def packPatterns (h : Heap) : Nat → List Nat → List Nat → Option (List Nat × List Word × List Nat)
  | _, [], refs => some ([], [], refs)
  | start, f :: fs, refs =>
    match h f with
    | none => none
    | some fo => match packFactWords h fo.refs (start + fo.code.length) fo.code refs with
      | none => none
      | some (hs, bs, refs1) =>
        match packPatterns h (start + (hs ++ bs).length) fs refs1 with
        | none => none
        | some (starts, zone, refs2) => some (start :: starts, (hs ++ bs) ++ zone, refs2)

/-- Replaces `n` words from `at_` on. -/
def splice (code : List Word) (at_ : Nat) (new : List Word) : List Word :=
  code.take at_ ++ new ++ code.drop (at_ + new.length)

/-- The switch of mem.cpp:1294-1307. -/
def shift (len : Nat) (w : Word) : Word :=
  if isIPtr w then ip (ix w + len)
  else if isAssign w then assignmentPointer (asAssignmentIndex w) (BitVec.ofNat 16 (ix w + len))
  else w

/-- `hlp->code(i) = Atom::IPointer(hlp->code(i).asIndex() + len)`. -/
def bump (len : Nat) (code : List Word) (i : Nat) : List Word :=
  code.set i (ip (ix (code.getD i 0) + len))

/-- `_Mem::pack_hlp` (mem.cpp:1266-1324). -/
def pack (h : Heap) (o : Obj) : Option Obj :=
  match o.code[2]?, o.code[3]?, o.code[5]? with
  | some w2, some w3, some w5 =>
    match o.code[ix w2]?, o.code[ix w5]? with
    | some ps, some gs =>
      if ix w3 = ix w2 + count ps + 1 then
        match packPatterns h (ix w3) (o.refs.take (count ps)) [] with
        | none => none
        | some (starts, zone, refs) =>
          let patched := splice o.code (ix w2 + 1) (starts.map ip)
          let moved := patched.take (ix w3) ++ zone ++ (patched.drop (ix w3)).map (shift zone.length)
          let code := bump zone.length (bump zone.length (bump zone.length moved 3) 4) 5
          let g := ix w5 + zone.length
          match ((code.drop (g + 1)).take (count gs)).mapM (fun w => o.refs[ix w]?) with
          | none => none
          | some groups =>
            some { code := splice code (g + 1) ((List.range (count gs)).map fun j => rp (refs.length + j))
                   refs := refs ++ groups }
      else none
    | _, _ => none
  | _, _, _ => none

/-! ## Unpacking -/

/-- A new object being filled: words by position, and references. -/
structure New where
  code : Nat → Option Word
  refs : List Nat

def New.write (s : New) (p : Nat) (w : Word) : New := ⟨fun q => if q = p then some w else s.code q, s.refs⟩
def New.addRef (s : New) (r : Nat) : New := ⟨s.code, s.refs ++ [r]⟩

/-- `_Mem::_unpack_code` (mem.cpp:1241-1264): the `n` words still to be read from `pos` on; `off` is
`fact_object_index`. -/
def unpackWords (p : Obj) (off : Nat) : (fuel : Nat) → (n pos : Nat) → New → Option New
  | 0, _, _, _ => none
  | _ + 1, 0, _, s => some s
  | k + 1, n + 1, pos, s =>
    match p.code[pos]? with
    | none => none
    | some w =>
      if isRPtr w then
        match p.refs[ix w]? with
        | none => none
        | some r => unpackWords p off k n (pos + 1) ((s.write (pos - off) (rp s.refs.length)).addRef r)
      else if isIPtr w then
        match p.code[ix w]? with
        | none => none
        | some hd =>
          match unpackWords p off k (count hd + 1) (ix w) (s.write (pos - off) (ip (ix w - off))) with
          | none => none
          | some s' => unpackWords p off k n (pos + 1) s'
      else unpackWords p off k n (pos + 1) (s.write (pos - off) w)

/-- What a fact refers to after unpacking. -/
inductive Content
  | new (o : New)
  | old (r : Nat)

/-- `_Mem::unpack_fact_object` (mem.cpp:1234-1239). -/
def unpackObject (p : Obj) (fuel off : Nat) : Option New :=
  match p.code[off]? with
  | none => none
  | some hd => unpackWords p off fuel (count hd + 1) off ⟨fun _ => none, []⟩

structure Fact where
  code : List Word
  refs : List Content

/-- The loop of `_Mem::unpack_fact` (mem.cpp:1212-1229) over the remaining words. -/
def unpackFactWords (p : Obj) (fuel : Nat) : List Word → Fact → Option Fact
  | [], f => some f
  | w :: ws, f =>
    if isIPtr w then
      match unpackObject p fuel (ix w) with
      | none => none
      | some o => unpackFactWords p fuel ws ⟨f.code ++ [rp f.refs.length], f.refs ++ [.new o]⟩
    else if isRPtr w then
      match p.refs[ix w]? with
      | none => none
      | some r => unpackFactWords p fuel ws ⟨f.code ++ [rp f.refs.length], f.refs ++ [.old r]⟩
    else unpackFactWords p fuel ws ⟨f.code ++ [w], f.refs⟩

/-- `_Mem::unpack_fact` (mem.cpp:1207-1232). -/
def unpackFact (p : Obj) (fuel : Nat) (at_ : Nat) : Option Fact :=
  match p.code[at_]? with
  | none => none
  | some hd =>
    if at_ + count hd + 1 ≤ p.code.length then
      unpackFactWords p fuel ((p.code.drop at_).take (count hd + 1)) ⟨[], []⟩
    else none

/-- The unpacked model: code, and references: the facts, then the output groups. -/
structure Unpacked where
  code : List Word
  facts : List Fact
  groups : List Nat

/-- The switch of mem.cpp:1183-1193. -/
def unshift (len : Nat) (w : Word) : Word :=
  if isIPtr w then ip (ix w - len)
  else if isAssign w then assignmentPointer (asAssignmentIndex w) (BitVec.ofNat 16 (ix w - len))
  else w

/-- `code(i) = Atom::IPointer(hlp->code(i).asIndex() - len)`. -/
def lower (len : Nat) (p : Obj) (code : List Word) (i : Nat) : List Word :=
  code.set i (ip (ix (p.code.getD i 0) - len))

/-- `_Mem::unpack_hlp` (mem.cpp:1154-1205). -/
def unpack (p : Obj) (fuel : Nat) : Option Unpacked :=
  match p.code[2]?, p.code[3]?, p.code[5]? with
  | some w2, some w3, some w5 =>
    match p.code[ix w2]?, p.code[ix w5]? with
    | some ps, some gs =>
      let n := count ps
      match ((p.code.drop (ix w2 + 1)).take n).mapM (fun w => unpackFact p fuel (ix w)),
            ((p.code.drop (ix w5 + 1)).take (count gs)).mapM (fun w => p.refs[ix w]?) with
      | some facts, some groups =>
        let c1 := splice p.code (ix w2 + 1) ((List.range n).map rp)
        let c2 := splice c1 (ix w5 + 1) ((List.range (count gs)).map fun j => rp (n + j))
        let invalid := ix w2 + n + 1
        let len := ix w3 - invalid
        let c3 := c2.take invalid ++ (c2.drop (ix w3)).map (unshift len)
        some ⟨lower len p (lower len p (lower len p c3 3) 4) 5, facts, groups⟩
      | _, _ => none
    | _, _ => none
  | _, _, _ => none

end Verif.Pack
