import Verif.Compile.Model
import Verif.TimeText.Model

/-!
# Decompiling objects

`Decompiler::decompile_object` with everything that reads the code of an object and writes its text
(r_comp/decompiler.cpp:122-157, 317-1048).

The text is taken as the compiler takes it: as a tree (`Compile.Syn`) whose leaves are tokens. Layout is left out, but for
the brackets of sets, which matter to names that stand before them. `none` stands for text that is no tree of tokens
(`undefined-class`, `|sid`, `v1::`, ...), for undefined behaviour and for a loop that does not end. Left out, and `none`
too: pointers to cells before them, which are labels of programs (decompiler.cpp:851-856), and indirections
(decompiler.cpp:896-972). Taken without the identifiers (`include_oid`), with labels and views, by a decompiler that does
not ignore objects (decompiler.cpp:340-382). Indices of code have no more than 16 bits. Recursion is bounded by a number
that stands for the depth of the stack.
-/
namespace Verif.Decomp
open Verif.Macro Verif.Atom
open Verif.Compile (Syn NilW Source View Obj)

/-- What does not change: the tables of the metadata (segments.h:119-126), `str_opcode` of `classes_by_opcodes_`, the
opcode of the class `_inj` of `classes_`, `object_names_`, the time reference, and what a number that is written with
`operator <<` is when it is read again. -/
structure Meta where
  classNames : List Name
  operatorNames : List Name
  functionNames : List Name
  byOpcode : List Name
  inj : Option (BitVec 16)
  names : Nat → Option Name
  ref : Int
  shown : BitVec 32 → Option (BitVec 32)

/-- `horizontal_set_`, `in_hlp_`, `hlp_postfix_` (decompiler.h:103-105). -/
structure Fl where
  hor : Bool
  inHlp : Bool
  post : Bool

/-- `code_[i]`: beyond its end the code is made longer, with default atoms (resized_vector.h:142-147). -/
def cell (code : List Word) (i : Nat) : Word := (code[i]?).getD Atom.default

/-- What a name is written as. -/
def varName (k : Nat) : Name := 'v' :: TimeText.dec k

/-- The functions that write an expression. -/
inductive Rend | expr | marker | fact | hlp | icmd
  deriving DecidableEq

/-- `renderers_` (decompiler.cpp:167-195), by opcode whatever the descriptor; `write_group`, `write_pgm` and `write_ipgm`
do what `write_expression` does, `write_ihlp` and `write_cmd` what `write_marker` does. Elsewhere it is null. -/
def rend (T : Meta) (op : Nat) : Option Rend :=
  (T.byOpcode[op]?).map fun n =>
    if "mk.".toList <:+: n then .marker
    else if n = "pred".toList then .marker
    else if n = "icmd".toList then .icmd
    else if n = "cmd".toList then .marker
    else if n = "fact".toList ∨ n = "|fact".toList then .fact
    else if n = "cst".toList ∨ n = "mdl".toList then .hlp
    else if n = "icst".toList ∨ n = "imdl".toList then .marker
    else .expr

/-- `write_expression_head` (decompiler.cpp:420-451). -/
def headName (T : Meta) (a : Word) : Option Name :=
  let d := getDescriptor a
  if d = 0xC5 then T.operatorNames[(asOpcode a).toNat]?
  else if d = 0xC3 ∨ d = 0xC4 then T.classNames[(asOpcode a).toNat]?
  else if d = 0xC9 ∨ d = 0xCB ∨ d = 0xCC then some "ipgm".toList
  else if d = 0xCA then some "icpp_pgm".toList
  else if d = 0xCD then some "cst".toList
  else if d = 0xCE then some "mdl".toList
  else if d = 0xC8 then some "grp".toList
  else none

/-- The loop over pointers (decompiler.cpp:844-850). -/
def follow (code : List Word) : Nat → Nat → Option Nat
  | 0, _ => none
  | f + 1, j => if getDescriptor (cell code j) = 0x84 then follow code f (asIndex (cell code j)).toNat else some j

/-- Numbers (decompiler.cpp:810-822). -/
def number (T : Meta) (a : Word) : Option Syn :=
  if a = 0x3FFFFFFF then some (.nilw .nb)
  else if a = plusInfinity then some (.nilw .forever)
  else (T.shown (asFloat a)).map .num

/-- A time as it is read again. -/
def timeSyn (read : List Char → Option (Int × List Char)) (mk : BitVec 64 → Syn) (s : Option (List Char)) : Option Syn :=
  (s.bind fun s => read (s ++ [' '])).map fun p => mk (BitVec.ofInt 64 p.1)

/-- Strings: the text ends at the next quotation mark. -/
def stringSyn (c : List Word) : Option Syn :=
  (Words.getString c).bind fun s => if (34 : BitVec 8) ∈ s then none else some (.str s)

/-- Structures without elements that pointers point to (decompiler.cpp:870-895). -/
def plainSyn (T : Meta) (code : List Word) (j : Nat) : Option Syn :=
  let d := getDescriptor (cell code j)
  if d = 0xC1 ∨ d = 0xC2 then (if readsAsNil (cell code j) then some .empty else none)
  else if d = 0xC6 then (if readsAsNil (cell code j) then some (.nilw .st) else stringSyn (code.drop j))
  else if d = 0xC7 then
    (if readsAsNil (cell code j) then some (.nilw .ts)
    else (Words.getInt64 code (j + 1)).bind fun v => timeSyn TimeText.readTimestamp .ts (TimeText.toStringSMsUs v.toInt T.ref))
  else if d = 0xD0 then
    (Words.getInt64 code (j + 1)).bind fun v => timeSyn TimeText.readDuration .dur (TimeText.toStringUs v.toInt)
  else none

/-- Atoms that are not pointers (decompiler.cpp:978-1047). -/
def atomSyn (T : Meta) (refs : List Nat) (close : Bool) (a : Word) : Option Syn :=
  let d := getDescriptor a
  if d = 0x85 then some (.name ((T.names ((refs[(asIndex a).toNat]?).getD 0)).getD "unknown-object".toList) close)
  else if d = 0x90 then some .this
  else if d = 0x80 then some (.nilw .nil)
  else if d = 0x81 then some (if readsAsNil a then .nilw .bl else .bool (asBoolean a))
  else if d = 0x82 then some .wild
  else if d = 0x83 then some .tail
  else if d = 0xA0 then (if readsAsNil a then none else some (.hex a))
  else if d = 0xA1 then some (if readsAsNil a then .nilw .did else .hex a)
  else if d = 0xA2 then (if readsAsNil a then some (.nilw .fid) else (T.functionNames[(asOpcode a).toNat]?).map (.name · close))
  else if d = 0x91 then some (.name "vw".toList close)
  else if d = 0x92 then some (.name "mks".toList close)
  else if d = 0x93 then some (.name "vws".toList close)
  else some (.hex a)

/-- `VIEW_CODE_MAX_SIZE` (replicode_defs.h:92). -/
def viewMax : Nat := 13

/-- `write_as_view_index` (decompiler.cpp:663-668). -/
def viewIndex (code : List Word) (inj : BitVec 16) (j : Nat) : Nat :=
  if asOpcode (cell code (j + 1)) = inj then
    (asIndex (cell code ((asIndex (cell code (j + 2))).toNat + 2))).toNat
  else 0

mutual

/-- `write_any` (decompiler.cpp:806-1048): nothing, or the text of an element; whether `::` has been written. `close`: the
next character is `]`. After `::` only wildcards make text that can be read. -/
def writeAny : Nat → Meta → List Word → List Nat → Fl → Nat → Bool → Bool → Nat → Option (List Syn × Fl × Bool)
  | 0, _, _, _, _, _, _, _, _ => none
  | f + 1, T, code, refs, fl, i, close, tailed, wvi =>
    let a := cell code i
    if tailed then (if getDescriptor a = 0x82 then some ([], fl, true) else none)
    else if isFloat a then (number T a).map fun x => ([x], fl, false)
    else if getDescriptor a = 0x86 then
      if asCastOpcode a = 0x0FFE then some ([.wild], fl, false)
      else some ([if fl.post then .var (varName (asIndex a).toNat) else .name (varName (asIndex a).toNat) close], fl, false)
    else if getDescriptor a = 0x8D then
      if fl.post then none
      else (writePtr f T code refs fl i (some (varName (asAssignmentIndex a).toNat)) (asIndex a).toNat wvi).map
        fun p => ([p.1], p.2, false)
    else if getDescriptor a = 0x84 ∨ getDescriptor a = 0x8E then
      (writePtr f T code refs fl i none (asIndex a).toNat wvi).map fun p => ([p.1], p.2, false)
    else (atomSyn T refs close a).map fun x => ([x], fl, getDescriptor a = 0x83)
  termination_by structural f => f

/-- What a pointer points to (decompiler.cpp:843-976), after a label or not. -/
def writePtr : Nat → Meta → List Word → List Nat → Fl → Nat → Option Name → Nat → Nat → Option (Syn × Fl)
  | 0, _, _, _, _, _, _, _, _ => none
  | f + 1, T, code, refs, fl, i, l, j, wvi =>
    match follow code f j with
    | none => none
    | some j =>
      if j < i then none
      else
        let d := getDescriptor (cell code j)
        if d = 0xC3 ∨ d = 0xC4 ∨ d = 0xC5 ∨ d = 0xC8 ∨ d = 0xC9 ∨ d = 0xCA ∨ d = 0xCB ∨ d = 0xCC ∨ d = 0xCD ∨ d = 0xCE then
          (writeExpr f T code refs fl j).map fun p => (.expr l p.1 p.2.1, p.2.2)
        else if (d = 0xC1 ∨ d = 0xC2) ∧ ¬ readsAsNil (cell code j) then
          (writeSet f T code refs fl j wvi).bind fun p =>
            match p.1, l with
            | some xs, l => some (.set l xs, p.2)
            | none, none => some (.nilw .nil, p.2)
            | none, some _ => none
        else if l.isSome then none
        else (plainSyn T code j).map fun x => (x, fl)
  termination_by structural f => f

/-- `write_expression`, `write_marker`, `write_fact`, `write_hlp`, `write_icmd` (decompiler.cpp:479-739). -/
def writeExpr : Nat → Meta → List Word → List Nat → Fl → Nat → Option (Name × List Syn × Fl)
  | 0, _, _, _, _, _ => none
  | f + 1, T, code, refs, fl, j =>
    match rend T (asOpcode (cell code j)).toNat, headName T (cell code j) with
    | some r, some h =>
      let n := (getAtomCount (cell code j)).toNat
      match r with
      | .expr => (writeElems f T code refs fl (j + 1) n false false 0).map fun p => (h, p.1, p.2)
      | .marker =>
        (writeElems f T code refs { fl with hor := fl.hor || !fl.inHlp } (j + 1) n false false 0).map
          fun p => (h, p.1, { p.2 with hor := p.2.hor && p.2.inHlp })
      | .fact =>
        (writeElems f T code refs { fl with hor := fl.hor || fl.inHlp } (j + 1) n false false 0).map
          fun p => (h, p.1, { p.2 with hor := false })
      | .hlp => (writeHlp f T code refs { fl with inHlp := true } (j + 1) 0 n false).map fun p => (h, p.1, { p.2 with inHlp := false })
      | .icmd =>
        match T.inj with
        | none => none
        | some o => (writeElems f T code refs fl (j + 1) n false false (viewIndex code o j)).map fun p => (h, p.1, p.2)
    | _, _ => none
  termination_by structural f => f

/-- The elements of an expression, of a set or of a view, `n` from cell `i` on; `inSet`: `]` comes after them
(decompiler.cpp:453-477, 673-688, 752-757, 769, 776-784, 791-800). -/
def writeElems : Nat → Meta → List Word → List Nat → Fl → Nat → Nat → Bool → Bool → Nat → Option (List Syn × Fl)
  | 0, _, _, _, _, _, _, _, _, _ => none
  | f + 1, T, code, refs, fl, i, n, inSet, tailed, wvi =>
    match n with
    | 0 => some ([], fl)
    | n + 1 =>
      match writeAny f T code refs fl i (inSet && n == 0) tailed wvi with
      | none => none
      | some (xs, fl, tailed) => (writeElems f T code refs fl (i + 1) n inSet tailed wvi).map fun p => (xs ++ p.1, p.2)
  termination_by structural f => f

/-- The elements of a model or of a composite state from the `k`-th on (decompiler.cpp:586-620). -/
def writeHlp : Nat → Meta → List Word → List Nat → Fl → Nat → Nat → Nat → Bool → Option (List Syn × Fl)
  | 0, _, _, _, _, _, _, _, _ => none
  | f + 1, T, code, refs, fl, i, k, n, tailed =>
    match n with
    | 0 => some ([], fl)
    | n + 1 =>
      if tailed then
        match writeAny f T code refs fl i false tailed 0 with
        | none => none
        | some (xs, fl, tailed) => (writeHlp f T code refs fl (i + 1) (k + 1) n tailed).map fun p => (xs ++ p.1, p.2)
      else
        match writeAny f T code refs { fl with post := fl.post && k < 2, hor := fl.hor || k = 0 || k = 4 } i false false 0 with
        | none => none
        | some (xs, fl', tailed) =>
          (writeHlp f T code refs { fl' with post := true, hor := fl.hor } (i + 1) (k + 1) n tailed).map fun p => (xs ++ p.1, p.2)
  termination_by structural f => f

/-- `write_set` (decompiler.cpp:761-804) with `write_view` (decompiler.cpp:741-759), of a set that has elements; nothing
for `nil`. What `[]` without elements is read as depends on the layout. -/
def writeSet : Nat → Meta → List Word → List Nat → Fl → Nat → Nat → Option (Option (List Syn) × Fl)
  | 0, _, _, _, _, _, _ => none
  | f + 1, T, code, refs, fl, j, wvi =>
    let n := (getAtomCount (cell code j)).toNat
    if n = 0 then none
    else if n = 1 then (writeElems f T code refs fl (j + 1) n true false 0).map fun p => (some p.1, p.2)
    else if wvi > 0 ∧ wvi = j then
      if n > viewMax then some (none, fl)
      else (writeElems f T code refs fl (j + 1) n true false 0).map fun p => (some p.1, p.2)
    else if fl.hor then (writeElems f T code refs fl (j + 1) n true false wvi).map fun p => (some p.1, p.2)
    else (writeElems f T code refs fl (j + 1) n false false wvi).map fun p => (some p.1, p.2)
  termination_by structural f => f

end

/-- `write_view(0, ...)` (decompiler.cpp:741-759) for every view of an object (decompiler.cpp:389-399). -/
def writeViews (f : Nat) (T : Meta) : Fl → List View → Option (List Syn × Fl)
  | fl, [] => some ([], fl)
  | fl, v :: r =>
    let n := (getAtomCount (cell v.code 0)).toNat
    if n > viewMax ∨ n ≤ 1 then (writeViews f T fl r).map fun p => (.nilw .nil :: p.1, p.2)
    else
      match writeElems f T v.code v.refs fl 1 n true false 0 with
      | none => none
      | some (xs, fl) => (writeViews f T fl r).map fun p => (.set none xs :: p.1, p.2)

/-- `decompile_object` (decompiler.cpp:317-405); a label that there is not is empty (decompiler.cpp:379). -/
def decompileObject (f : Nat) (T : Meta) (fl : Fl) (k : Nat) (b : Obj) : Option (Source × Fl) :=
  match writeExpr f T b.code b.refs { fl with hor := false } 0 with
  | none => none
  | some (h, xs, fl) =>
    if b.views.isEmpty then some (⟨T.names k, h, xs, none⟩, fl)
    else (writeViews f T fl b.views).map fun p => (⟨T.names k, h, xs, some p.1⟩, p.2)

/-- Objects from the `k`-th on, in the order in which they are. -/
def decompileFrom (f : Nat) (T : Meta) : Fl → Nat → List Obj → Option (List Source)
  | _, _, [] => some []
  | fl, k, b :: r =>
    match decompileObject f T fl k b with
    | none => none
    | some (o, fl) => (decompileFrom f T fl (k + 1) r).map (o :: ·)

/-- All objects of an image, by a decompiler that was just made (decompiler.cpp:111-114); `horizontal_set_` is not set
there. -/
def decompile (f : Nat) (T : Meta) (objs : List Obj) : Option (List Source) := decompileFrom f T ⟨false, false, true⟩ 0 objs

end Verif.Decomp
