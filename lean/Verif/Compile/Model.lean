import Verif.Classes.Model
import Verif.Words.Model

/-!
# Compiling objects

`Compiler::compile` with everything that reads a part of an object and writes its code (r_comp/compiler.cpp:137-367,
905-960, 1403-2693): expressions, sets, the values of members, variables, references and views.

The text is taken as a tree (`Syn`) whose leaves are the tokens that the functions for characters recognise
(compiler.cpp:370-905, 1160-1400); layout, indentation and comments are left out, and no name is one of the words of the
language (`nil`, `this`, `true`, `forever`, ...). Simplified: indirections (`a.b`, compiler.cpp:962-1157), casts (`a#b`,
compiler.cpp:331-347) and whatever the lexer makes of malformed text are left out; indices of code have no more than 16
bits; `err_` is an error at once (after it every function returns false). Recursion is bounded by a number that stands
for the depth of the stack. `Out.err` stands for an error, for undefined behaviour and for a loop that does not end.
-/
namespace Verif.Compile
open Verif.Macro Verif.Classes Verif.Atom

/-- The words for things that have no value (compiler.cpp:787-870). -/
inductive NilW | nil | nb | ts | forever | nid | did | fid | bl | st
  deriving DecidableEq

/-- The text of an element. `close`, of a name: the next character is `]`. Labels are the names before a colon. -/
inductive Syn
  | nilw (k : NilW)
  | empty
  | this
  | num (bits : BitVec 32)
  | ts (v : BitVec 64)
  | dur (v : BitVec 64)
  | str (s : List (BitVec 8))
  | bool (b : Bool)
  | hex (w : Word)
  | wild
  | tail
  | var (x : Name)
  | name (x : Name) (close : Bool)
  | cls (l c : Name)
  | expr (l : Option Name) (head : Name) (args : List Syn)
  | set (l : Option Name) (elems : List Syn)

/-- What does not change while an object is compiled: the metadata (segments.h:119-131), `global_references_` with the
types of the classes, `current_class_`, `in_hlp_` and `allow_variables_and_wildcards_outside_pattern_skeleton_`
(compiler.h:119-172). -/
structure Env where
  classes : Name → Option Class
  sys : Name → Option Class
  globals : Name → Option (Nat × Ret)
  cur : Class
  inHlp : Bool
  allow : Bool

/-- What changes: `code_` and `references_` of `current_object_`, the extent index, `hlp_references_`,
`local_references_` with the types of the classes, `pattern_lvl` and `no_arity_check` of `state_` (compiler.h:119-172),
and `use_as` of the classes of the metadata (class.h:120). -/
structure St where
  code : List Word
  refs : List Nat
  ext : Nat
  hlp : List Name
  locals : Name → Option (Nat × Ret)
  lvl : Nat
  noArity : Bool
  useAs : Name → Iter

/-- What a function that reads comes to: true, false, an error. -/
inductive Out
  | yes (s : St)
  | no (s : St)
  | err

/-- The next attempt after one that came to false. -/
def Out.or : Out → (St → Out) → Out
  | .yes s, _ => .yes s
  | .no s, k => k s
  | .err, _ => .err

/-- `set_error` and `return false` (compiler.cpp:122-128): without effect while the elements of a set are counted, when
nothing is written either. -/
def fail (w : Bool) (s : St) : Out := if w then .err else .no s

/-- `if (write) current_object_->code_[i] = a`. -/
def wr (w : Bool) (s : St) (i : Nat) (a : Word) : St := if w then { s with code := Words.put s.code i a } else s

/-- `code_[extent_index++] = a` for every `a`. -/
def app (s : St) : List Word → St
  | [] => s
  | a :: r => app { s with code := Words.put s.code s.ext a, ext := s.ext + 1 } r

/-- `if (write) code_[write_index] = Atom::IPointer(extent_index)` and the words at the end of the code. -/
def block (w : Bool) (s : St) (wi : Nat) (ws : List Word) : St :=
  if w then app { s with code := Words.put s.code wi (iPointer (BitVec.ofNat 16 s.ext)) } ws else s

/-- Cells `i` to `i + n` made wildcards (compiler.cpp:1599-1601, 1828-1831). -/
def fill (s : St) (i : Nat) : Nat → St
  | 0 => s
  | n + 1 => fill { s with code := Words.put s.code i (wildcard 0) } (i + 1) n

/-- The bytes of a string, four in a word; `char` has a sign (compiler.cpp:2175-2187). -/
def pack : Nat → List (BitVec 8) → Word
  | _, [] => 0
  | sh, b :: r => (b.signExtend 32 <<< sh) ||| pack (sh + 8) r

/-- compiler.cpp:2173-2189. -/
def strWords : List (BitVec 8) → List Word
  | a :: b :: c :: d :: r => pack 0 [a, b, c, d] :: strWords r
  | [] => []
  | r => [pack 0 r]

/-- `addLocalReference` (compiler.cpp:358-374). -/
def addLocal (s : St) (x : Name) (i : Nat) (t : Ret) : St :=
  { s with locals := fun y => if y = x then some (i, t) else s.locals y }

/-- `add_hlp_reference` (compiler.cpp:376-383): the counter of the loop has 8 bits. -/
def addHlp (s : St) (x : Name) : Option (Nat × St) :=
  let i := s.hlp.idxOf x
  if i < s.hlp.length then (if i < 256 then some (i, s) else none)
  else if s.hlp.length < 256 then some (s.hlp.length, { s with hlp := s.hlp ++ [x] }) else none

/-- `read_variable` (compiler.cpp:2525-2552); `t` and `op`: the type and the opcode of the class. -/
def readVar (e : Env) (s : St) (wi : Nat) (w : Bool) (t : Ret) (op : BitVec 16) : Syn → Out
  | .var x =>
    if s.lvl > 0 ∨ e.allow then
      if e.inHlp ∨ (e.allow ∧ e.cur.name ≠ "pgm".toList) then
        match addHlp s x with
        | some (i, s) => .yes (wr w s wi (vlPointer (BitVec.ofNat 16 i)))
        | none => .err
      else .yes (wr w (addLocal s x wi t) wi (wildcard op))
    else fail w s
  | _ => .no s

/-- `getGlobalReferenceIndex` (compiler.cpp:339-356), for a name that is known: the index in the references of the
object. -/
def refIndex (s : St) (o : Nat) : Nat × St :=
  let i := s.refs.idxOf o
  if i < s.refs.length then (i, s) else (s.refs.length, { s with refs := s.refs ++ [o] })

/-- `hlp_reference` (compiler.cpp:941-964): `symbol_expr` does not read a name before `]` (compiler.cpp:560-562). -/
def readHlpRef (s : St) (wi : Nat) (w : Bool) (x : Name) (close : Bool) : Out :=
  let i := s.hlp.idxOf x
  if ¬ close ∧ i < s.hlp.length then
    (if i < 256 then .yes (wr w s wi (vlPointer (BitVec.ofNat 16 i))) else .err)
  else if ¬ close ∧ s.hlp.length > 255 then .err
  else .no s

/-- `global_reference` (compiler.cpp:926-939), then `hlp_reference`. -/
def readGlobalRef (e : Env) (s : St) (wi : Nat) (w : Bool) (t : Ret) (x : Name) (close : Bool) : Out :=
  match e.globals x with
  | some (o, ty) =>
    if t = .any ∨ ty = t then
      let (i, s) := refIndex s o
      .yes (wr w s wi (rPointer (BitVec.ofNat 16 i)))
    else readHlpRef s wi w x close
  | none => readHlpRef s wi w x close

/-- `read_reference` (compiler.cpp:2526-2646) with `local_reference` (compiler.cpp:908-924). -/
def readRef (e : Env) (s : St) (wi : Nat) (w : Bool) (t : Ret) : Syn → Out
  | .this => if t = .any ∨ e.cur.type = t then .yes (wr w s wi Atom.this) else .no s
  | .name x close =>
    match s.locals x with
    | some (i, ty) =>
      if t = .any ∨ ty = .any ∨ ty = t then .yes (wr w s wi (codeVLPointer (BitVec.ofNat 16 i) 0x0FFF))
      else readGlobalRef e s wi w t x close
    | none => readGlobalRef e s wi w t x close
  | _ => .no s

/-- `read_wildcard` and `read_tail_wildcard` (compiler.cpp:2648-2680), with `tail_wildcard` (compiler.cpp:1190-1210). -/
def readWild (e : Env) (s : St) (wi : Nat) (w : Bool) : Syn → Out
  | .wild => if s.lvl > 0 ∨ e.allow then .yes (wr w s wi (wildcard 0)) else fail w s
  | .tail =>
    let s := { s with noArity := true }
    if s.lvl > 0 then .yes (wr w s wi tailWildcard) else fail w s
  | _ => .no s

/-- The kinds of values that have a function to read them. -/
inductive Lit | number | timestamp | duration | string | boolean | function | node | device
  deriving DecidableEq

/-- The type that the function asks of an expression. -/
def Lit.ret : Lit → Ret
  | .number => .number | .timestamp => .timestamp | .duration => .duration | .string => .string
  | .boolean => .boolean | .function => .function | .node => .node | .device => .device

/-- `read_nil_nb`, `read_forever_nb`, ... (compiler.cpp:2380-2497). -/
def readNil (k : Lit) (s : St) (wi : Nat) (w : Bool) : Syn → Out
  | .nilw n =>
    match k, n with
    | .number, .nb => .yes (wr w s wi undefinedFloat)
    | .number, .forever => .yes (wr w s wi plusInfinity)
    | .timestamp, .ts => .yes (block w s wi [undefinedTimestamp, 0xFFFFFFFF, 0xFFFFFFFF])
    | .string, .st => .yes (wr w s wi undefinedString)
    | .boolean, .bl => .yes (wr w s wi undefinedBoolean)
    | .function, .fid => .yes (wr w s wi undefinedDeviceFunction)
    | .node, .nid => .yes (wr w s wi undefinedNode)
    | .device, .did => .yes (wr w s wi undefinedDevice)
    | _, _ => .no s
  | _ => .no s

/-- The value itself (compiler.cpp:2022-2027, 2051-2056, 2080-2091, 2131-2142, 2167-2192, 2218-2225, 2250-2257,
2281-2287). A label that is the name of a class is taken for the class and the text cannot be read further. -/
def readLiteral (k : Lit) (e : Env) (s : St) (wi : Nat) (w : Bool) : Syn → Out
  | .num b => if k = .number then .yes (wr w s wi (Atom.float b)) else .no s
  | .ts v => if k = .timestamp then .yes (block w s wi [timestamp, Words.hi32 v, Words.lo32 v]) else .no s
  | .dur v => if k = .duration then .yes (block w s wi [duration, Words.hi32 v, Words.lo32 v]) else .no s
  | .str c => if k = .string then .yes (block w s wi (Atom.string (BitVec.ofNat 8 c.length) :: strWords c)) else .no s
  | .bool b => if k = .boolean then .yes (wr w s wi (Atom.boolean b)) else .no s
  | .hex h =>
    if k = .node ∧ getDescriptor h = 0xA0 ∨ k = .device ∧ getDescriptor h = 0xA1 then .yes (wr w s wi h) else .no s
  | .name x close =>
    if k = .function ∧ ¬ close then
      match e.classes x with
      | some c => .yes (wr w s wi c.atom)
      | none => .no s
    else .no s
  | .expr (some l) _ _ => if k = .function ∧ (e.classes l).isSome then .err else .no s
  | .set (some l) _ => if k = .function ∧ (e.classes l).isSome then .err else .no s
  | _ => .no s

/-- What `read_number` and the functions like it try before an expression (compiler.cpp:2008-2300). -/
def readSimple (k : Lit) (e : Env) (s : St) (wi : Nat) (w : Bool) (x : Syn) : Out :=
  (readNil k s wi w x).or fun s =>
  (readVar e s wi w k.ret 0x0FFF x).or fun s =>
  (readRef e s wi w k.ret x).or fun s =>
  (readWild e s wi w x).or fun s =>
  readLiteral k e s wi w x

/-- `read_nil` (compiler.cpp:2401-2410). -/
def readNilX (s : St) (wi : Nat) (w : Bool) : Syn → Out
  | .nilw .nil => .yes (wr w s wi Atom.nil)
  | _ => .no s

/-- `read_nil_set` (compiler.cpp:2412-2428). -/
def readNilSet (s : St) (wi : Nat) (w : Bool) : Syn → Out
  | .empty => .yes (block w s wi [Atom.set 0])
  | _ => .no s

/-- `read_class` (compiler.cpp:2379-2397). -/
def readClass (e : Env) (s : St) (wi : Nat) (w : Bool) : Syn → Out
  | .cls l c =>
    match e.sys c <|> e.classes c with
    | some p => .yes (wr w (addLocal s l wi p.type) wi p.atom)
    | none => .no s
  | _ => .no s

/-- `read_class` takes the label away before it comes to false (compiler.cpp:2361-2366). -/
def strip : Syn → Syn
  | .expr _ h a => .expr none h a
  | .set _ a => .set none a
  | x => x

/-- `expression_head` (compiler.cpp:1576-1594) with `object`, `marker` and `op` (compiler.cpp:1403-1521). -/
def head (e : Env) (t : Ret) (x : Name) : Option Class :=
  if t = .any then e.sys x <|> e.classes x
  else match e.classes x with
    | some c => if c.type = .any ∨ c.type = t then some c else none
    | none => none

/-- `Class::is_pattern` (class.cpp:122-125). -/
def isPattern (e : Env) (c : Class) : Bool :=
  (e.classes "ptn".toList).map (·.atom) == some c.atom || (e.classes "|ptn".toList).map (·.atom) == some c.atom

/-- The class by which a set or an expression is read: one of the metadata, whose `use_as` may change, or a copy. -/
inductive Use
  | key (n : Name)
  | own (i : Iter)

/-- `p.use_as`. -/
def useOf (s : St) : Use → Iter
  | .key n => s.useAs n
  | .own i => i

/-- `p.atom_.getAtomCount()`. -/
def arity (c : Class) : Nat := (getAtomCount c.atom).toNat

/-- `restore_state` (compiler.cpp:116-120). -/
def restore (s0 s : St) : St := { s with lvl := s0.lvl, noArity := s0.noArity }

mutual

/-- `read_any` (compiler.cpp:1952-2004). -/
def readAny : Nat → Env → St → Nat → Bool → Syn → Out
  | 0, _, _, _, _, _ => .err
  | f + 1, e, s, wi, w, x =>
    (readLit f e s wi w false .number x).or fun s =>
    (readLit f e s wi w false .timestamp x).or fun s =>
    (readLit f e s wi w false .duration x).or fun s =>
    (readLit f e s wi w false .string x).or fun s =>
    (readLit f e s wi w false .boolean x).or fun s =>
    (readLit f e s wi w false .function x).or fun s =>
    (readLit f e s wi w false .node x).or fun s =>
    (readLit f e s wi w false .device x).or fun s =>
    (readClass e s wi w x).or fun s =>
    (readExpr f e s wi w false none (strip x)).or fun s =>
    (readSet f e s wi w false none (strip x)).or fun s =>
    fail w s
  termination_by structural f => f

/-- `read_number`, `read_boolean`, `read_timestamp`, `read_duration`, `read_string`, `read_node`, `read_device`,
`read_function` (compiler.cpp:2006-2300). -/
def readLit : Nat → Env → St → Nat → Bool → Bool → Lit → Syn → Out
  | 0, _, _, _, _, _, _, _ => .err
  | f + 1, e, s, wi, w, enforce, k, x =>
    (readSimple k e s wi w x).or fun s =>
    (exprT f e s wi w k.ret x).or fun s' =>
    if enforce then fail w (restore s s') else .no (restore s s')
  termination_by structural f => f

/-- `read_expression` (compiler.cpp:2302-2338). -/
def readExpr : Nat → Env → St → Nat → Bool → Bool → Option Class → Syn → Out
  | 0, _, _, _, _, _, _, _ => .err
  | f + 1, e, s, wi, w, enforce, p, x =>
    let p := p.filter (·.name ≠ "xpr".toList)
    (readNilX s wi w x).or fun s =>
    (match p with
      | some c => readVar e s wi w c.type (asOpcode c.atom) x
      | none => readVar e s wi w .any 0x0FFF x).or fun s =>
    (readRef e s wi w (match p with | some c => c.type | none => .any) x).or fun s =>
    (readWild e s wi w x).or fun s =>
    (match p with
      | some c => exprC f e s wi w c x
      | none => exprT f e s wi w .any x).or fun s =>
    if enforce then fail w s else .no s
  termination_by structural f => f

/-- `read_set` (compiler.cpp:2351-2377). -/
def readSet : Nat → Env → St → Nat → Bool → Bool → Option (Class × Use) → Syn → Out
  | 0, _, _, _, _, _, _, _ => .err
  | f + 1, e, s, wi, w, enforce, p, x =>
    (readNilSet s wi w x).or fun s =>
    (readVar e s wi w .set 0x0FFF x).or fun s =>
    (readRef e s wi w .set x).or fun s =>
    (readWild e s wi w x).or fun s =>
    (match p with
      | some (c, u) => setC f e s wi w c u x
      | none => setU f e s wi w x).or fun s =>
    if enforce then fail w s else .no s
  termination_by structural f => f

/-- `read` (compiler.cpp:329-337). -/
def readMember : Nat → Env → St → Nat → Bool → Member → Syn → Out
  | 0, _, _, _, _, _, _ => .err
  | f + 1, e, s, wi, w, m, x =>
    if m.cls = [] then
      match m.read with
      | .any => readAny f e s wi w x
      | .number => readLit f e s wi w true .number x
      | .timestamp => readLit f e s wi w true .timestamp x
      | .duration => readLit f e s wi w true .duration x
      | .boolean => readLit f e s wi w true .boolean x
      | .string => readLit f e s wi w true .string x
      | .node => readLit f e s wi w true .node x
      | .device => readLit f e s wi w true .device x
      | .function => readLit f e s wi w true .function x
      | .expression => readExpr f e s wi w true none x
      | .set => readSet f e s wi w true none x
      | .cls => readClass e s wi w x
    else
      match e.classes m.cls with
      | none => .err
      | some c =>
        let s := { s with useAs := fun n => if n = m.cls then m.iter else s.useAs n }
        match m.read with
        | .expression => readExpr f e s wi w true (some c) x
        | .set => readSet f e s wi w true (some (c, .key m.cls)) x
        | .cls => readClass e s wi w x
        | _ => .err
  termination_by structural f => f

/-- `expression`, by the type (compiler.cpp:1668-1710). -/
def exprT : Nat → Env → St → Nat → Bool → Ret → Syn → Out
  | 0, _, _, _, _, _, _ => .err
  | f + 1, e, s, wi, w, t, x =>
    match x with
    | .expr l h args =>
      match head e t h with
      | none => .no s
      | some c => exprBody f e (match l with | some l => if e.inHlp then s else addLocal s l wi c.type | none => s) wi w c l args
    | .set (some _) _ => fail w s
    | .cls _ _ => fail w s
    | .var _ => fail w s
    | _ => .no s
  termination_by structural f => f

/-- `expression`, by the class (compiler.cpp:1702-1744), with `expression_head` (compiler.cpp:1576-1594). -/
def exprC : Nat → Env → St → Nat → Bool → Class → Syn → Out
  | 0, _, _, _, _, _, _ => .err
  | f + 1, e, s, wi, w, c, x =>
    match x with
    | .expr l h args =>
      if h = c.name then exprBody f e (match l with | some l => addLocal s l wi c.type | none => s) wi w c l args
      else .no s
    | .set (some _) _ => fail w s
    | .cls _ _ => fail w s
    | .var _ => fail w s
    | _ => .no s
  termination_by structural f => f

/-- The rest of both (compiler.cpp:1679-1700, 1723-1744), with `get_hlp_reference` (compiler.cpp:385-391). -/
def exprBody : Nat → Env → St → Nat → Bool → Class → Option Name → List Syn → Out
  | 0, _, _, _, _, _, _, _ => .err
  | f + 1, e, s, wi, w, c, l, args =>
    if w then
      let put (a : Word) : St :=
        let s1 := app { s with code := Words.put s.code wi a } [c.atom]
        { s1 with ext := s1.ext + arity c }
      match l with
      | some l =>
        if e.inHlp then
          let i := s.hlp.idxOf l
          if i < s.hlp.length ∧ i < 255 then
            exprTail f e (put (assignmentPointer (BitVec.ofNat 8 i) (BitVec.ofNat 16 s.ext))) (s.ext + 1) w c args
          else .err
        else exprTail f e (put (iPointer (BitVec.ofNat 16 s.ext))) (s.ext + 1) w c args
      | none => exprTail f e (put (iPointer (BitVec.ofNat 16 s.ext))) (s.ext + 1) w c args
    else exprTail f e s 0 w c args
  termination_by structural f => f

/-- `expression_tail` (compiler.cpp:1596-1664), up to the elements. -/
def exprTail : Nat → Env → St → Nat → Bool → Class → List Syn → Out
  | 0, _, _, _, _, _, _ => .err
  | f + 1, e, s, wi, w, c, args =>
    exprArgs f e (if w ∧ s.lvl > 0 then fill s wi (arity c) else s) wi w c
      (e.inHlp || isPattern e c) (if e.inHlp then (if arity c = 0 then 65535 else arity c - 1) else 0) 0 args
  termination_by structural f => f

/-- The elements (compiler.cpp:1603-1652). -/
def exprArgs : Nat → Env → St → Nat → Bool → Class → Bool → Nat → Nat → List Syn → Out
  | 0, _, _, _, _, _, _, _, _, _ => .err
  | f + 1, e, s, wi, w, c, pat, last, n, args =>
    match args with
    | [] =>
      if s.noArity then
        .yes { s with noArity := false, lvl := if pat ∧ last > 0 ∧ n < last + 1 then s.lvl - 1 else s.lvl }
      else if n = arity c then .yes s
      else fail w s
    | x :: r =>
      if n ≥ arity c then fail w s
      else
        match c.members[n]? with
        | none => .err
        | some m =>
          match readMember f e (if pat ∧ n = 0 then { s with lvl := s.lvl + 1 } else s) (wi + n) w m x with
          | .yes s => exprArgs f e (if pat ∧ n = last then { s with lvl := s.lvl - 1 } else s) wi w c pat last (n + 1) r
          | .no s => fail w s
          | .err => .err
  termination_by structural f => f

/-- `set`, of anything (compiler.cpp:1746-1799). -/
def setU : Nat → Env → St → Nat → Bool → Syn → Out
  | 0, _, _, _, _, _ => .err
  | f + 1, e, s, wi, w, x =>
    match x with
    | .set l elems =>
      let s := match l with | some l => addLocal s l wi .set | none => s
      if w then
        match setCount f e { s with code := Words.put s.code wi (iPointer (BitVec.ofNat 16 s.ext)) } elems with
        | none => .err
        | some (n, s') =>
          let s1 := app (restore s s') [Atom.set (BitVec.ofNat 8 n)]
          anyElems f e { s1 with ext := s1.ext + n % 256 } (s.ext + 1) w 0 elems
      else anyElems f e s 0 w 0 elems
    | .expr (some _) _ _ => fail w s
    | .cls _ _ => fail w s
    | .var _ => fail w s
    | _ => .no s
  termination_by structural f => f

/-- compiler.cpp:1772-1795. -/
def anyElems : Nat → Env → St → Nat → Bool → Nat → List Syn → Out
  | 0, _, _, _, _, _, _ => .err
  | f + 1, e, s, wi, w, n, elems =>
    match elems with
    | [] => if n = 0 then fail w s else .yes s
    | x :: r =>
      match readAny f e s (wi + n) w x with
      | .yes s => anyElems f e s wi w (n + 1) r
      | .no s => fail w s
      | .err => .err
  termination_by structural f => f

/-- `set_element_count` (compiler.cpp:1933-1965): the count before it is cut to 8 bits. -/
def setCount : Nat → Env → St → List Syn → Option (Nat × St)
  | 0, _, _, _ => none
  | f + 1, e, s, elems =>
    match elems with
    | [] => some (0, s)
    | x :: r =>
      match readAny f e s 0 false x with
      | .yes s => (setCount f e s r).map fun p => (p.1 + 1, p.2)
      | .no s => some (0, s)
      | .err => none
  termination_by structural f => f

/-- `set`, by the class (compiler.cpp:1820-1931). -/
def setC : Nat → Env → St → Nat → Bool → Class → Use → Syn → Out
  | 0, _, _, _, _, _, _, _ => .err
  | f + 1, e, s, wi, w, c, u, x =>
    match x with
    | .set l elems =>
      let s := match l with | some l => addLocal s l wi c.type | none => s
      if w then
        let s0 := { s with code := Words.put s.code wi (iPointer (BitVec.ofNat 16 s.ext)) }
        if getDescriptor c.atom = 0xC2 ∧ useOf s u ≠ .set then
          let s1 := app s0 [c.atom]
          setElems f e { s1 with ext := s1.ext + arity c } (s.ext + 1) w c u elems
        else
          match setCount f e s0 elems with
          | none => .err
          | some (n, s') =>
            let s1 := app (restore s s') [Atom.set (BitVec.ofNat 8 n)]
            setElems f e { s1 with ext := s1.ext + n % 256 } (s.ext + 1) w c u elems
      else setElems f e s 0 w c u elems
    | .expr (some _) _ _ => fail w s
    | .cls _ _ => fail w s
    | .var _ => fail w s
    | _ => .no s
  termination_by structural f => f

/-- compiler.cpp:1826-1836. -/
def setElems : Nat → Env → St → Nat → Bool → Class → Use → List Syn → Out
  | 0, _, _, _, _, _, _, _ => .err
  | f + 1, e, s, wi, w, c, u, elems =>
    if useOf s u = .cls then clsElems f e (if w then fill s wi (arity c) else s) wi w c u (arity c) 0 elems
    else clsElems f e s wi w c u 0xFFFF 0 elems
  termination_by structural f => f

/-- compiler.cpp:1837-1911. -/
def clsElems : Nat → Env → St → Nat → Bool → Class → Use → Nat → Nat → List Syn → Out
  | 0, _, _, _, _, _, _, _, _, _ => .err
  | f + 1, e, s, wi, w, c, u, ar, n, elems =>
    match elems with
    | [] =>
      if n = 0 then fail w s
      else if n = ar ∨ ar = 0xFFFF then .yes s
      else if s.noArity then .yes { s with noArity := false }
      else fail w s
    | x :: r =>
      if n ≥ ar then fail w s
      else
        match (match useOf s u with
          | .expression => readExpr f e s (wi + n) w true (some c) x
          | .set => readSet f e s (wi + n) w true (some (c, .own .cls)) x
          | .cls =>
            match c.members[n]? with
            | none => .err
            | some m => readMember f e s (wi + n) w m x
          | .dcls => readClass e s (wi + n) w x) with
        | .yes s => clsElems f e s wi w c u ar (n + 1) r
        | .no s => fail w s
        | .err => .err
  termination_by structural f => f

end

/-- The text of an object: its label, the head, the members, and the views, nothing for `|[]`. -/
structure Source where
  label : Option Name
  head : Name
  args : List Syn
  views : Option (List Syn)

/-- `SysView` (segments.h): code and references. -/
structure View where
  code : List Word
  refs : List Nat

/-- `SysObject` (segments.h): code, references, views. -/
structure Obj where
  code : List Word
  refs : List Nat
  views : List View

/-- The class of the views (compiler.cpp:243-252). -/
def viewClass (e : Env) : Option Class :=
  if e.cur.name = "grp".toList then e.classes "grp_view".toList
  else if e.cur.name = "ipgm".toList ∨ e.cur.name = "icpp_pgm".toList ∨ e.cur.name = "mdl".toList ∨
      e.cur.name = "cst".toList then e.classes "pgm_view".toList
  else e.classes "view".toList

/-- compiler.cpp:254-293: every view is an object of its own; it begins at 0, where the pointer to it is overwritten. -/
def readViews (f : Nat) (e : Env) (c : Class) : St → List Syn → Option (List View × St)
  | s, [] => some ([], s)
  | s, x :: r =>
    match readSet f e { s with code := [], refs := [], ext := 0 } 0 true true (some (c, .own .cls)) x with
    | .yes s => (readViews f e c s r).map fun p => (⟨s.code, s.refs⟩ :: p.1, p.2)
    | _ => none

/-- `read_sys_object` (compiler.cpp:173-299); `n`: the number of objects in the image. The result has `global_references_`
and the state. An object without members leaves its closing parenthesis unread (compiler.cpp:214-226). -/
def readObject (f : Nat) (classes sys : Name → Option Class) (allow : Bool) (globals : Name → Option (Nat × Ret)) (n : Nat)
    (s : St) (o : Source) : Option (Obj × (Name → Option (Nat × Ret)) × St) :=
  match sys o.head with
  | none => none
  | some c =>
    if o.label.any fun l => (globals l).isSome then none
    else
      let g : Name → Option (Nat × Ret) := match o.label with
        | some l => fun x => if x = l then some (n, c.type) else globals x
        | none => globals
      let e : Env := ⟨classes, sys, g, c, c.name = "mdl".toList ∨ c.name = "cst".toList, allow⟩
      if arity c = 0 then none
      else
        match exprTail f e { s with code := [c.atom], refs := [], ext := arity c + 1, hlp := [], locals := fun _ => none }
            1 true c o.args with
        | .yes s1 =>
          match o.views with
          | none => some (⟨s1.code, s1.refs, []⟩, g, s1)
          | some vs =>
            if vs.isEmpty then none
            else
              match viewClass e with
              | none => none
              | some v => (readViews f { e with cur := v } v s1 vs).map fun p => (⟨s1.code, s1.refs, p.1⟩, g, p.2)
        | _ => none

/-- The loop of `compile` (compiler.cpp:139-172), from `n` objects on. -/
def compileFrom (f : Nat) (classes sys : Name → Option Class) (allow : Bool) :
    (Name → Option (Nat × Ret)) → Nat → St → List Source → Option (List Obj)
  | _, _, _, [] => some []
  | g, n, s, o :: r =>
    match readObject f classes sys allow g n s o with
    | none => none
    | some (b, g, s) => (compileFrom f classes sys allow g (n + 1) s r).map (b :: ·)

/-- `state_` of a compiler that was just made (compiler.h:176-190); `use_as` as in `Class` (class.cpp:115-121). -/
def start : St := ⟨[], [], 0, [], fun _ => none, 0, false, fun _ => .cls⟩

/-- `compile` (compiler.cpp:139-172) by a compiler that was just made, into an image without objects. -/
def compile (f : Nat) (classes sys : Name → Option Class) (allow : Bool) (src : List Source) : Option (List Obj) :=
  compileFrom f classes sys allow (fun _ => none) 0 start src

end Verif.Compile
