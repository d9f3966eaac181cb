/-!
# Reading and writing source text

`RepliStruct::parse`, `parseDirective`, `getIndent` and the printing of structures
(r_comp/preprocessor.cpp:131-629, 843-898), with the parts of `std::istream` they use as the C++ standard has them
([istream.unformatted]). Characters are ASCII; `eofChar` is what `(char)EOF` is. Left out: line numbers, the texts of errors
and file paths.
-/
namespace Verif.Source

/-! ## Streams -/

/-- An input stream: what is left to read, and the bits `eofbit` and `failbit`. -/
structure Stream where
  rest : List Char
  eof : Bool
  fail : Bool
  deriving DecidableEq

/-- `(char)EOF`. -/
def eofChar : Char := 'ÿ'

/-- `get`: on a stream that is not good it sets `failbit`; at the end both bits. -/
def Stream.get (s : Stream) : Char × Stream :=
  if s.eof || s.fail then (eofChar, { s with fail := true })
  else match s.rest with
    | [] => (eofChar, ⟨[], true, true⟩)
    | c :: cs => (c, ⟨cs, false, false⟩)

/-- `peek`: on a stream that is not good it sets `failbit`; at the end it sets `eofbit`. -/
def Stream.peek (s : Stream) : Option Char × Stream :=
  if s.eof || s.fail then (none, { s with fail := true })
  else match s.rest with
    | [] => (none, { s with eof := true })
    | c :: _ => (some c, s)

/-- `peek() < 32`, `EOF` being -1. -/
def low : Option Char → Bool
  | none => true
  | some c => decide (c.toNat < 32)

/-- `c > 32` for a `char`, which is signed. -/
def high (c : Char) : Bool := decide (32 < c.toNat) && decide (c.toNat < 128)

/-- preprocessor.cpp:230-232, reached right after a character was read: skips what is below 32. At the end of the
text `peek` sets `eofbit` and `get` `failbit`. -/
def skipLow (s : Stream) : Stream :=
  match s.rest.dropWhile fun c => decide (c.toNat < 32) with
  | [] => ⟨[], true, true⟩
  | cs => ⟨cs, false, false⟩

/-- `getIndent` (preprocessor.cpp:132-151). `seekg(-1)` after a character steps back before it; after the end of the
text it clears `eofbit` and does nothing else, since `failbit` is set. -/
def getIndent (s : Stream) : Nat × Stream :=
  if s.eof then (0, s)
  else if s.fail then (0, s)
  else
    let n := (s.rest.takeWhile (· == ' ')).length
    match s.rest.dropWhile (· == ' ') with
    | [] => (n / 3, ⟨[], false, true⟩)
    | cs => (n / 3, ⟨cs, false, false⟩)

/-- preprocessor.cpp:404-407: reads the characters above 32, and the one after them. -/
def readTail (s : Stream) : List Char × Stream :=
  (s.rest.takeWhile high,
    match s.rest.dropWhile high with
    | [] => ⟨[], true, true⟩
    | _ :: cs => ⟨cs, false, false⟩)

/-! ## Structures -/

/-- `RepliStruct::Type` (preprocessor.h:106). -/
inductive Kind | root | struct | set | atom | directive | condition | development
  deriving DecidableEq

/-- `RepliStruct` (preprocessor.h:97-117). -/
inductive Tree where
  | mk (kind : Kind) (label cmd tail : List Char) (args : List Tree)

mutual
/-- `operator<<` (preprocessor.cpp:859-898). -/
def Tree.print : Tree → List Char
  | .mk .atom _ cmd _ _ => cmd
  | .mk .directive _ _ _ _ => []
  | .mk .condition _ _ _ _ => []
  | .mk .struct label cmd tail args => label ++ '(' :: cmd ++ printEach args ++ ')' :: tail
  | .mk .development label cmd tail args => label ++ '{' :: cmd ++ printEach args ++ '}' :: tail
  | .mk .set label _ tail args => label ++ '[' :: printSet args ++ ']' :: tail
  | .mk .root _ _ _ args => printLines args
/-- Each member after a space. -/
def printEach : List Tree → List Char
  | [] => []
  | t :: ts => ' ' :: t.print ++ printEach ts
/-- Members with spaces between. -/
def printSet : List Tree → List Char
  | [] => []
  | t :: ts => t.print ++ printEach ts
/-- Each member on a line. -/
def printLines : List Tree → List Char
  | [] => []
  | t :: ts => t.print ++ '\n' :: printLines ts
end

/-! ## Reading -/

/-- The structure being read and the local variables of `parse` (preprocessor.cpp:152-162). -/
structure Loc where
  kind : Kind
  label : List Char
  cmd : List Char
  tail : List Char
  args : List Tree
  /-- `c`, `lastc`: the character read last and the one before. -/
  c : Char
  lastc : Char
  str : List Char
  /-- the local `label` -/
  lbl : List Char
  count : Nat
  comment : Bool
  expectSet : Bool

/-- A new structure. -/
def Loc.new (kind : Kind) (label cmd : List Char) : Loc :=
  ⟨kind, label, cmd, [], [], '\u0000', '\u0000', [], [], 0, false, false⟩

def Loc.tree (l : Loc) : Tree := .mk l.kind l.label l.cmd l.tail l.args

/-- The stream and the indentations of the current and the previous line. -/
structure Env where
  s : Stream
  cur : Nat
  prev : Nat
  deriving DecidableEq

/-- What one round of the loop comes to: go on, return, read a structure of this kind and label and go on, read a
directive, or never end. -/
inductive Act
  | cont (l : Loc) (e : Env)
  | ret (i : Int) (l : Loc) (e : Env)
  | sub (kind : Kind) (label : List Char) (l : Loc) (e : Env)
  | dir (l : Loc) (e : Env)
  | hang

/-- `param_expect > 0 && ++param_count == param_expect`: the structure, and whether the count is reached. -/
def counted (expect : Nat) (l : Loc) : Loc × Bool :=
  if expect > 0 then ({ l with count := l.count + 1 }, l.count + 1 == expect) else (l, false)

/-- What is done with the text read when it ends (e.g. preprocessor.cpp:294-306): it becomes a member if `member`,
else the command. -/
def flush (expect : Nat) (member : Bool) (l : Loc) : Loc × Bool :=
  if l.str.isEmpty then (l, false)
  else if member then counted expect { l with args := l.args ++ [.mk .atom [] l.str [] []], str := [] }
  else ({ l with cmd := l.str, str := [] }, false)

/-- Go on after `flush`, or return 0. -/
def Act.flushed (e : Env) (r : Loc × Bool) (k : Loc → Act) : Act := if r.2 then .ret 0 r.1 e else k r.1

/-- preprocessor.cpp:171-188, after a quote: the text up to the next quote, with both quotes; nothing if the text
ends before, where the loop goes on for ever; `none` inside if the line ends before. -/
def readString (cs : List Char) : Option (Option (List Char × List Char)) :=
  match cs.dropWhile fun c => c != '"' && c != '\n' && c != '\r' with
  | [] => none
  | c :: rest =>
    if c = '"' then some (some (cs.takeWhile (fun c => c != '"' && c != '\n' && c != '\r'), rest)) else some none

/-- Cases 10 and 13 (preprocessor.cpp:216-291). `lastcc` is the character before `lastc`. -/
def newline (expect : Nat) (lastcc : Char) (l : Loc) (e : Env) : Act :=
  if l.comment && (l.lastc == '.' && lastcc == '.') then .cont l e
  else
    let l := { l with comment := false }
    let r := getIndent (skipLow e.s)
    let e : Env := ⟨r.2, r.1, e.cur⟩
    if e.cur > e.prev then
      if l.expectSet then .sub .set l.lbl { l with lbl := [], expectSet := false } e
      else .sub .struct [] { l with expectSet := false } e
    else if e.cur < e.prev then
      .flushed e (flush expect (!l.cmd.isEmpty || l.kind == .set) l) fun l => .ret (e.prev - e.cur - 1 : Nat) l e
    else .flushed e (flush expect (!l.cmd.isEmpty || l.kind == .set || l.kind == .root) l) fun l => .cont l e

/-- Cases '(' and '{' (preprocessor.cpp:311-345, 379-413). -/
def openStruct (kind : Kind) (expect : Nat) (l : Loc) (e : Env) : Act :=
  if !l.str.isEmpty && l.lastc == ':' then .sub kind l.str { l with str := [], lbl := [] } e
  else .flushed e (flush expect (!l.cmd.isEmpty || l.kind == .set) l) fun l => .sub kind l.lbl { l with lbl := [] } e

/-- Cases ')' and '}' (preprocessor.cpp:346-378, 414-440); `member` for '}' also in developments. -/
def closeStruct (member : Bool) (expect : Nat) (l : Loc) (e : Env) : Act :=
  let p := e.s.peek
  let r := if p.1 = some ':' then readTail p.2 else ([], p.2)
  let e := { e with s := r.2 }
  .flushed e (flush expect (!l.cmd.isEmpty || l.kind == .set || member) { l with tail := l.tail ++ r.1 }) fun l =>
    .ret 0 l e

/-- Case '[' after the label is set (preprocessor.cpp:457-501). -/
def openSet' (expect : Nat) (l : Loc) (e : Env) : Act :=
  let p := e.s.peek
  if p.1 = some ']' then
    let q := (p.2.get).2.peek
    let e := { e with s := q.2 }
    if low q.1 || q.1 == some ';' then .cont { l with expectSet := true } e
    else if l.lastc ≠ ':' ∧ high l.lastc = true then .cont { l with str := l.str ++ ['[', ']'] } e
    else .cont { l with args := l.args ++ [.mk .set l.lbl [] [] []] } e
  else
    let e := { e with s := p.2 }
    .flushed e (flush expect (!l.cmd.isEmpty || l.kind == .set) l) fun l => .sub .set l.lbl { l with lbl := [] } e

/-- Case '[' (preprocessor.cpp:451-501). -/
def openSet (expect : Nat) (l : Loc) (e : Env) : Act :=
  openSet' expect (if l.lastc = ':' then { l with lbl := l.str, str := [] } else l) e

/-- The switch (preprocessor.cpp:190-531) for the character `l.c`. -/
def switch (expect : Nat) (lastcc : Char) (l : Loc) (e : Env) : Act :=
  if l.c = '\t' then if l.comment then .cont l e else .ret (-1) l e
  else if l.c = '!' then
    if l.comment then .cont l e else if l.kind = .root then .dir l e else .ret (-1) l e
  else if l.c = '\n' ∨ l.c = '\r' then newline expect lastcc l e
  else if l.c = ';' then .cont { l with comment := true } e
  else if l.comment then .cont l e
  else if l.c = ' ' then
    .flushed e (flush expect (!l.cmd.isEmpty || l.kind == .set || l.kind == .development) l) fun l => .cont l e
  else if l.c = '(' then openStruct .struct expect l e
  else if l.c = ')' then closeStruct false expect l e
  else if l.c = '{' then openStruct .development expect l e
  else if l.c = '}' then closeStruct (l.kind == .development) expect l e
  else if l.c = '|' then
    let p := e.s.peek
    if p.1 = some '[' then .cont { l with str := l.str ++ ['|', '[', ']'] } { e with s := (p.2.get).2.get.2 }
    else .cont { l with str := l.str ++ [l.c] } { e with s := p.2 }
  else if l.c = '[' then openSet expect l e
  else if l.c = ']' then
    .flushed e (flush expect (!l.cmd.isEmpty || l.kind == .set) l) fun l => .ret 0 l e
  else .cont { l with str := l.str ++ [l.c] } e

/-- One round of the loop (preprocessor.cpp:163-533). -/
def step (expect : Nat) (l : Loc) (e : Env) : Act :=
  let g := e.s.get
  if !l.comment && g.1 == '"' then
    match readString g.2.rest with
    | none => .hang
    | some none => .ret (-1) l { e with s := g.2 }
    | some (some (q, rest)) =>
      .cont { l with c := '"', lastc := (q.getLast?).getD '"', str := l.str ++ '"' :: q ++ ['"'] }
        { e with s := ⟨rest, false, false⟩ }
  else switch expect l.lastc { l with c := g.1, lastc := l.c } { e with s := g.2 }

/-- The name of a directive (preprocessor.cpp:539-547): nothing at the end of the text. -/
def dirName (s : Stream) : Option (List Char × Stream) :=
  match s.rest.dropWhile high with
  | [] => none
  | cs => some ('!' :: s.rest.takeWhile high, ⟨cs, false, false⟩)

/-- The kind of a directive and the number of arguments (preprocessor.cpp:549-589). -/
def dirParams (name : List Char) : Option (Kind × Nat) :=
  if name = "!def".toList then some (.directive, 2)
  else if name = "!counter".toList then some (.directive, 2)
  else if name = "!undef".toList then some (.directive, 1)
  else if name = "!ifdef".toList then some (.condition, 1)
  else if name = "!ifundef".toList then some (.condition, 1)
  else if name = "!else".toList then some (.condition, 0)
  else if name = "!endif".toList then some (.condition, 0)
  else if name = "!class".toList then some (.directive, 1)
  else if name = "!op".toList then some (.directive, 1)
  else if name = "!dfn".toList then some (.directive, 1)
  else if name = "!load".toList then some (.directive, 1)
  else none

/-- preprocessor.cpp:591-600: the rest of the line and the ends of lines. -/
def skipLine (s : Stream) : Stream :=
  match s.rest.dropWhile fun c => decide (13 < c.toNat) with
  | [] => ⟨[], true, false⟩
  | cs => skipLow ⟨cs, false, false⟩

/-- `parse` with so many rounds and calls: the value returned, the structure and the stream; `none` if that is not
enough. -/
def parse : Nat → Nat → Loc → Env → Option (Int × Loc × Env)
  | 0, _, _, _ => none
  | f + 1, expect, l, e =>
    if e.s.eof then some (0, l, e)
    else
      match step expect l e with
      | .cont l e => parse f expect l e
      | .ret i l e => some (i, l, e)
      | .hang => none
      | .sub k lab l e =>
        (parse f 0 (.new k lab []) e).bind fun r =>
          let c := counted expect { l with args := l.args ++ [r.2.1.tree] }
          if r.1 < 0 then some (-1, c.1, r.2.2)
          else if c.2 then some (0, c.1, r.2.2)
          else if r.1 > 0 then some (r.1 - 1, c.1, r.2.2)
          else parse f expect c.1 r.2.2
      | .dir l e =>
        match dirName e.s with
        | none => some (-1, l, { e with s := ⟨[], true, false⟩ })
        | some (name, s) =>
          match dirParams name with
          | none => some (-1, l, { e with s := s })
          | some (k, 0) =>
            parse f expect { l with args := l.args ++ [.mk k [] name [] []] } { e with s := skipLine s }
          | some (k, n + 1) =>
            (parse f (n + 1) (.new k [] name) { e with s := s }).bind fun r =>
              if r.1 ≠ 0 then some (-1, l, r.2.2)
              else parse f expect { l with args := l.args ++ [r.2.1.tree] } r.2.2

/-- What `Preprocessor::process` (preprocessor.cpp:1085-1115) and `loadReplicodeFile` (775-805) do with a text: a
structure, or an error. -/
def readText (f : Nat) (text : List Char) : Option (Option Tree) :=
  (parse f 0 (.new .root [] []) ⟨⟨text, false, false⟩, 0, 0⟩).map fun r =>
    if r.1 < 0 then none else if !r.2.2.s.eof then none else some r.2.1.tree

end Verif.Source
