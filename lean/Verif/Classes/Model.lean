import Verif.Macro.Model
import Verif.Atom.Model

/-!
# Classes, operators and functions from their definitions

`Preprocessor::initialize` with `isTemplateClass`, `isSet`, `instantiateClass`, `getMember`, `getMembers` and
`getReturnType` (r_comp/preprocessor.cpp:1138-1414): what is made of the lines `!class`, `!op` and `!dfn` of a file after
preprocessing. Nothing as a result stands for undefined behaviour, an exception, or a recursion that does not end.
Simplified: `LastClassID` (32 bits) does not wrap; of the metadata only what is written here is kept; `template_classes_`
is empty at the start, as it is the first time.
-/
namespace Verif.Classes
open Verif.Source Verif.Macro

/-- The functions of the compiler that read a member (structure_member.h:121-134). -/
inductive Read
  | any | number | timestamp | duration | boolean | string | node | device | function | expression | set | cls
  deriving DecidableEq

/-- structure_member.h:114-119. -/
inductive Iter | cls | expression | set | dcls
  deriving DecidableEq

/-- `StructureMember` (structure_member.h:135-148); its return type follows from `read` (structure_member.cpp:100-111). -/
structure Member where
  read : Read
  name : Name
  cls : Name
  iter : Iter
  deriving DecidableEq

/-- structure_member.h:96-108. -/
inductive Ret | any | number | timestamp | set | boolean | string | node | device | function | cls | duration
  deriving DecidableEq

/-- `Class` (class.h:95-123). -/
structure Class where
  atom : BitVec 32
  name : Name
  members : List Member
  type : Ret
  deriving DecidableEq

/-- `Class()` (class.cpp:108-109). -/
def Class.none : Class := ⟨Atom.default, "undefined".toList, [], .any⟩

/-- What `instantiateClass` changes: the metadata (segments.h:119-131), `class_opcode_`, `LastClassID`. -/
structure Reg where
  classes : Name → Option Class
  names : List Name
  byOpcode : List Class
  opcode : BitVec 16
  lastId : Nat

/-- `resized_vector::operator[]` on the left of an assignment (r_code/vector.h). -/
def put {α : Type} (d : α) (l : List α) (i : Nat) (v : α) : List α := (l ++ List.replicate (i + 1 - l.length) d).set i v

/-- Files a class under the opcode and its name, and goes to the next opcode (preprocessor.cpp:1193-1195,
1378-1392). -/
def Reg.add (r : Reg) (c : Class) : Reg :=
  { r with
    classes := Macro.set r.classes c.name (some c)
    names := put [] r.names r.opcode.toNat c.name
    byOpcode := put Class.none r.byOpcode r.opcode.toNat c
    opcode := r.opcode + 1 }

mutual
/-- `isTemplateClass` (preprocessor.cpp:1138-1160), of one argument. -/
def template : Tree → Bool
  | .mk .atom _ c _ _ => decide (c = ":~".toList)
  | .mk .struct _ _ _ as => templates as
  | .mk .development _ _ _ as => templates as
  | .mk .set _ _ _ as => templates as
  | _ => false
/-- `isTemplateClass`, of the arguments. -/
def templates : List Tree → Bool
  | [] => false
  | t :: ts => template t || templates ts
end

/-- `isSet` (preprocessor.cpp:1162-1175). -/
def isSet (name : Name) : List Tree → Option Bool
  | [] => some false
  | t :: ts =>
    if t.kind ≠ .directive ∨ t.cmd ≠ "!class".toList then isSet name ts
    else match t.args with
      | [] => none
      | s :: _ =>
        if s.cmd = name then some false
        else if s.cmd = name ++ "[]".toList then some true
        else isSet name ts

/-- The name and the type in an argument (preprocessor.cpp:1222-1224); without a colon `find` gives `npos`, and `npos + 1`
is zero. -/
def typeOf (cmd : Name) : Name :=
  match cmd.dropWhile (· ≠ ':') with
  | [] => cmd
  | _ :: t => t

/-- preprocessor.cpp:1225-1244 and 1259-1262: the member for an argument of the type. -/
def atomMember (cmd : Name) : Member :=
  let name := cmd.takeWhile (· ≠ ':')
  let type := typeOf cmd
  if type = [] then ⟨.any, name, [], .cls⟩
  else if type = "nb".toList then ⟨.number, name, [], .cls⟩
  else if type = "ts".toList then ⟨.timestamp, name, [], .cls⟩
  else if type = "us".toList then ⟨.duration, name, [], .cls⟩
  else if type = "bl".toList then ⟨.boolean, name, [], .cls⟩
  else if type = "st".toList then ⟨.string, name, [], .cls⟩
  else if type = "did".toList then ⟨.device, name, [], .cls⟩
  else if type = "fid".toList then ⟨.function, name, [], .cls⟩
  else if type = "nid".toList then ⟨.node, name, [], .cls⟩
  else if type = "xpr".toList then ⟨.expression, name, [], .cls⟩
  else if type = "type".toList then ⟨.cls, name, [], .cls⟩
  else ⟨.expression, name, type, .cls⟩

/-- preprocessor.cpp:1204-1217: the member for a set. `substr` from the third character throws if there are less than two;
the length is that of the command of the set less one, without limit if it is empty. -/
def setMember (root : List Tree) (m : Tree) : Option Member :=
  let name := m.label.dropLast
  match m.args with
  | [] => some ⟨.set, name, [], .cls⟩
  | a :: _ =>
    if a.cmd.length < 2 then none
    else
      let type := if m.cmd = [] then a.cmd.drop 2 else (a.cmd.drop 2).take (m.cmd.length - 1)
      (isSet type root).map fun b =>
        if b then ⟨.set, name, type, .set⟩
        else if type = "type".toList then ⟨.set, name, type, .dcls⟩
        else ⟨.set, name, type, .expression⟩

/-- preprocessor.cpp:1180-1185: the name of an instance, without the last two characters of the name of the template. -/
def instanceName (cmd : Name) (id : Nat) : Name :=
  (if cmd.length < 2 then cmd else cmd.dropLast.dropLast) ++ (toString id).toList

/-- The member that stands for an instance (preprocessor.cpp:1253, 1271). -/
def instanceMember (label name : Name) : Member := ⟨.set, label.dropLast, name, .cls⟩

abbrev Templates := Name → Option Tree

mutual
/-- `getMember` (preprocessor.cpp:1198-1284): the members added, the arguments left, the classes. The arguments are listed
with the one at the back first. -/
def getMember (root : List Tree) (tpl : Templates) :
    Nat → Bool → List Tree → Reg → Tree → Option (List Member × List Tree × Reg)
  | 0, _, _, _, _ => none
  | f + 1, inst, stack, r, m =>
    match m.kind with
    | .set => (setMember root m).map fun x => ([x], stack, r)
    | .atom =>
      if m.cmd = "nil".toList then some ([], stack, r)
      else if typeOf m.cmd = ['~'] then
        match stack with
        | [] => none
        | a :: rest =>
          if a.kind = .struct then
            (tpl a.cmd).bind fun t =>
              (instantiate root tpl f r t a.args).map fun x => ([instanceMember a.label x.1], rest, x.2)
          else getMember root tpl f true rest r a
      else some ([atomMember m.cmd], stack, r)
    | .struct =>
      (tpl m.cmd).bind fun t =>
        if inst then (instantiate root tpl f r t m.args).map fun x => ([instanceMember m.label x.1], stack, x.2)
        else getMembers root tpl f false (m.args ++ stack) r t.args
    | .development => getMembers root tpl f inst stack r m.args
    | _ => some ([], stack, r)
/-- `getMembers` (preprocessor.cpp:1286-1290). -/
def getMembers (root : List Tree) (tpl : Templates) :
    Nat → Bool → List Tree → Reg → List Tree → Option (List Member × List Tree × Reg)
  | 0, _, _, _, _ => none
  | _ + 1, _, stack, r, [] => some ([], stack, r)
  | f + 1, inst, stack, r, t :: ts =>
    (getMember root tpl f inst stack r t).bind fun x =>
      (getMembers root tpl f inst x.2.1 x.2.2 ts).map fun y => (x.1 ++ y.1, y.2)
/-- `instantiateClass` (preprocessor.cpp:1177-1196): the name of the instance, the classes. -/
def instantiate (root : List Tree) (tpl : Templates) : Nat → Reg → Tree → List Tree → Option (Name × Reg)
  | 0, _, _, _ => none
  | f + 1, r, t, args =>
    let name := instanceName t.cmd r.lastId
    (getMembers root tpl f true args { r with lastId := r.lastId + 1 } t.args).map fun x =>
      (name, x.2.2.add ⟨Atom.sSet x.2.2.opcode (BitVec.ofNat 8 x.1.length), name, x.1, .any⟩)
end

/-- `getReturnType` (preprocessor.cpp:1292-1313). -/
def returnType (tail : Name) : Ret :=
  if tail = ":nb".toList then .number
  else if tail = ":ts".toList then .timestamp
  else if tail = ":us".toList then .duration
  else if tail = ":bl".toList then .boolean
  else if tail = ":st".toList then .string
  else if tail = ":nid".toList then .node
  else if tail = ":did".toList then .device
  else if tail = ":fid".toList then .function
  else if tail = ":[]".toList then .set
  else .any

/-- What is kept from line to line. -/
structure All where
  reg : Reg
  tpl : Templates
  sys : Name → Option Class
  operators : List Name
  functions : List Name

/-- `string::find(s) != npos`. -/
def has (s : Name) : Name → Bool
  | [] => s.isEmpty
  | c :: l => s.isPrefixOf (c :: l) || has s l

/-- The name of a class: what is before `[]` at the end (preprocessor.cpp:1338-1343). -/
def className (cmd : Name) : Name :=
  if has "[]".toList cmd then cmd.dropLast.dropLast else cmd

/-- preprocessor.cpp:1355-1369. -/
def classAtom (name : Name) (op : BitVec 16) (n : BitVec 8) : BitVec 32 :=
  if name = "grp".toList then Atom.group op n
  else if name = "ipgm".toList then Atom.instantiatedProgram op n
  else if name = "icpp_pgm".toList then Atom.instantiatedCPPProgram op n
  else if name = "cst".toList then Atom.compositeState op n
  else if name = "mdl".toList then Atom.model op n
  else if has "mk.".toList name then Atom.marker op n
  else Atom.object op n

/-- The line `!class` (preprocessor.cpp:1336-1392) without templates; `front` of no arguments is undefined. -/
def defineClass (root : List Tree) (f : Nat) (a : All) (s : Tree) : Option All :=
  let name := className s.cmd
  (getMembers root a.tpl f false [] a.reg s.args).bind fun x =>
    let r := x.2.2
    let n := BitVec.ofNat 8 x.1.length
    if has "[]".toList s.cmd then
      some { a with reg := r.add ⟨Atom.sSet r.opcode n, name, x.1, .any⟩ }
    else
      s.args.head?.map fun b =>
        let c : Class := ⟨classAtom name r.opcode n, name, x.1, .any⟩
        if b.cmd = "_obj".toList ∨ b.cmd = "_grp".toList ∨ b.cmd = "_fact".toList then
          { a with reg := r.add c, sys := Macro.set a.sys name (some c) }
        else { a with reg := r.add c }

/-- The line `!op` (preprocessor.cpp:1393-1402): the arity is the number of arguments as written. -/
def defineOperator (root : List Tree) (f : Nat) (a : All) (s : Tree) : Option All :=
  (getMembers root a.tpl f false [] a.reg s.args).map fun x =>
    let c : Class := ⟨Atom.operator (BitVec.ofNat 16 a.operators.length) (BitVec.ofNat 8 s.args.length), s.cmd, x.1,
      returnType s.tail⟩
    { a with reg := { x.2.2 with classes := Macro.set x.2.2.classes s.cmd (some c) }, operators := a.operators ++ [s.cmd] }

/-- The line `!dfn` (preprocessor.cpp:1403-1411). -/
def defineFunction (a : All) (s : Tree) : All :=
  let c : Class := ⟨Atom.deviceFunction (BitVec.ofNat 16 a.functions.length), s.cmd, [⟨.set, [], [], .cls⟩], .any⟩
  { a with reg := { a.reg with classes := Macro.set a.reg.classes s.cmd (some c) }, functions := a.functions ++ [s.cmd] }

/-- The body of the loop of `initialize` (preprocessor.cpp:1330-1413). -/
def define (root : List Tree) (f : Nat) (a : All) (t : Tree) : Option All :=
  if t.kind ≠ .directive then some a
  else match t.args with
    | [] => none
    | s :: _ =>
      if t.cmd = "!class".toList then
        if templates s.args then some { a with tpl := Macro.set a.tpl (className s.cmd) (some s) }
        else defineClass root f a s
      else if t.cmd = "!op".toList then defineOperator root f a s
      else if t.cmd = "!dfn".toList then some (defineFunction a s)
      else some a

/-- preprocessor.cpp:1319-1328: `xpr` and `type`, which are not filed under their opcodes. -/
def start (id : Nat) : All :=
  let classes : Name → Option Class := Macro.set (fun _ => none) "xpr".toList
    (some ⟨Atom.object 0 0, "xpr".toList, [], .any⟩)
  ⟨⟨Macro.set classes "type".toList (some ⟨Atom.object 1 0, "type".toList, [], .any⟩), [], [], 2, id⟩,
    fun _ => none, fun _ => none, [], []⟩

/-- `Preprocessor::initialize` (preprocessor.cpp:1315-1414) into new metadata. -/
def init (f : Nat) (id : Nat) (root : List Tree) : Option All :=
  root.foldlM (define root f) (start id)

end Verif.Classes
