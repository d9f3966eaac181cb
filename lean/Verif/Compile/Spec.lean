import Verif.Compile.Model
import Mathlib.Data.List.Forall2

/-!
# What a source means, and how code is read

A source means a tree: `Means`. Code reads as a tree: `Reads`. Neither mentions the compiler.
-/
namespace Verif.Compile
open Verif.Macro Verif.Classes Verif.Atom

/-- What an element stands for: a word, a variable, another object, a time, a string, a structure with its head and
what it is made of, to be assigned to a variable or not. -/
inductive Tree
  | word (w : Word)
  | var (x : Name)
  | obj (o : Nat)
  | time (h : Word) (v : BitVec 64)
  | str (s : List (BitVec 8))
  | node (l : Option Name) (h : Word) (kids : List Tree)

/-- Cell `i` of the code reads as a tree; pointers point to later cells. `H`: what the numbers of variables stand for; `R`:
what the numbers of references stand for. -/
inductive Reads (code : List Word) (H : List Name) (R : List Nat) : Nat → Tree → Prop
  | word {i w} (h : code[i]? = some w) : Reads code H R i (.word w)
  | var {i x k} (hk : k < 256) (h : code[i]? = some (vlPointer (BitVec.ofNat 16 k))) (hx : H[k]? = some x) :
      Reads code H R i (.var x)
  | obj {i o k} (hk : k < 4096) (h : code[i]? = some (rPointer (BitVec.ofNat 16 k))) (ho : R[k]? = some o) :
      Reads code H R i (.obj o)
  | time {i a v j} (hj : j < 4096) (hij : i < j) (h : code[i]? = some (iPointer (BitVec.ofNat 16 j))) (ha : code[j]? = some a)
      (hv : Words.getInt64 code (j + 1) = some v) : Reads code H R i (.time a v)
  | str {i s j} (hj : j < 4096) (hij : i < j) (h : code[i]? = some (iPointer (BitVec.ofNat 16 j))) (hl : s.length < 256)
      (ha : code[j]? = some (Atom.string (BitVec.ofNat 8 s.length)))
      (hs : ∀ k b, s[k]? = some b → ∃ w, code[j + 1 + k / 4]? = some w ∧ (w >>> (8 * (k % 4))).setWidth 8 = b) :
      Reads code H R i (.str s)
  | node {i a kids j} (hj : j < 4096) (hij : i < j) (h : code[i]? = some (iPointer (BitVec.ofNat 16 j))) (ha : code[j]? = some a)
      (hn : (getAtomCount a).toNat = kids.length)
      (hk : ∀ (k : Nat) t, kids[k]? = some t → Reads code H R (j + 1 + k) t) : Reads code H R i (.node none a kids)
  | assign {i x v a kids j} (hj : j < 4096) (hij : i < j)
      (hv : v < 255) (hx : H[v]? = some x)
      (h : code[i]? = some (assignmentPointer (BitVec.ofNat 8 v) (BitVec.ofNat 16 j))) (ha : code[j]? = some a)
      (hn : (getAtomCount a).toNat = kids.length)
      (hk : ∀ (k : Nat) t, kids[k]? = some t → Reads code H R (j + 1 + k) t) : Reads code H R i (.node (some x) a kids)

mutual
/-- The number of cells that a tree takes besides its own. -/
def Tree.size : Tree → Nat
  | .word _ => 0
  | .var _ => 0
  | .obj _ => 0
  | .time _ _ => 3
  | .str s => 1 + (s.length + 3) / 4
  | .node _ _ kids => 1 + kids.length + sizes kids
/-- The same for several. -/
def sizes : List Tree → Nat
  | [] => 0
  | t :: r => t.size + sizes r
end

/-- What may stand somewhere: anything, a value of some kind, an expression of a class or of any, a set of a class or of
anything. -/
inductive Kind
  | any
  | lit (k : Lit)
  | expr (c : Option Class)
  | set (p : Option (Class × Iter))

/-- Where an element stands: among the elements of a set of anything, in a member, among the expressions `[::c]`, among
the structured sets `[::c[]]`. -/
inductive Pos
  | any
  | mem (m : Member)
  | ex (c : Class)
  | se (c : Class)

/-- The class `xpr` stands for any expression. -/
def exprKind (c : Class) : Kind := if c.name = "xpr".toList then .expr none else .expr (some c)

/-- What may stand there. Members that are types (`:type`, `[::type]`) are left out. -/
def kindOf (classes : Name → Option Class) : Pos → Option Kind
  | .any => some .any
  | .ex c => some (exprKind c)
  | .se c => some (.set (some (c, .cls)))
  | .mem m =>
    if m.cls = [] then
      match m.read with
      | .any => some .any
      | .number => some (.lit .number)
      | .timestamp => some (.lit .timestamp)
      | .duration => some (.lit .duration)
      | .boolean => some (.lit .boolean)
      | .string => some (.lit .string)
      | .node => some (.lit .node)
      | .device => some (.lit .device)
      | .function => some (.lit .function)
      | .expression => some (.expr none)
      | .set => some (.set none)
      | .cls => none
    else
      match classes m.cls with
      | none => none
      | some c =>
        match m.read with
        | .expression => some (exprKind c)
        | .set => some (.set (some (c, m.iter)))
        | _ => none

/-- How a class is used by what stands there: `:c`, `[::c]`, `[c]` or `[::c[]]`. -/
def own : Pos → List (Name × Iter)
  | .mem m => if m.cls = [] then [] else [(m.cls, m.iter)]
  | _ => []

/-- Where member `k` of an expression stands. -/
def argAt (c : Option Class) (k : Nat) : Pos :=
  match c with
  | some c => (c.members[k]?).elim .any Pos.mem
  | none => .any

/-- Where element `k` of a set of some kind stands. -/
def elemAt (K : Option Kind) (k : Nat) : Pos :=
  match K with
  | some (.set (some (c, .cls))) => argAt (some c) k
  | some (.set (some (c, .expression))) => .ex c
  | some (.set (some (c, .set))) => .se c
  | _ => .any

mutual
/-- The ways in which classes are used by all that stands there. -/
def uses (classes : Name → Option Class) (p : Pos) : Syn → List (Name × Iter)
  | .expr _ h args => own p ++ usesAll classes (argAt (classes h)) 0 args
  | .set _ elems => own p ++ usesAll classes (elemAt (kindOf classes p)) 0 elems
  | _ => own p
/-- By the elements from the `n`-th on. -/
def usesAll (classes : Name → Option Class) (pos : Nat → Pos) (n : Nat) : List Syn → List (Name × Iter)
  | [] => []
  | x :: r => uses classes (pos n) x ++ usesAll classes pos (n + 1) r
end

/-- What the meaning depends on: the classes, the objects, whether it is in a model or a composite state, whether
variables may be used, whether patterns may end with `::`; the variables and the objects referred to. -/
structure Lang where
  classes : Name → Option Class
  sys : Name → Option Class
  globals : Name → Option (Nat × Ret)
  inHlp : Bool
  vars : Bool
  pat : Bool
  names : List Name
  objs : List Nat

/-- What is asked of a source besides: of its strings, of names before `]`, of labels, and, of
the elements of a set in a member, of the ways in which classes are used by the members in them. -/
structure Limits where
  str : List (BitVec 8) → Prop
  close : Bool → Prop
  lbl : Kind → Class → Prop
  use : Member → List (Name × Iter) → Prop

/-- Nothing. -/
def Limits.none : Limits := ⟨fun _ => True, fun _ => True, fun _ _ => True, fun _ _ => True⟩

/-- Which words for nothing may stand where. -/
def nilOk : Kind → NilW → Bool
  | .any, _ => true
  | .lit .number, .nb => true
  | .lit .number, .forever => true
  | .lit .timestamp, .ts => true
  | .lit .string, .st => true
  | .lit .boolean, .bl => true
  | .lit .function, .fid => true
  | .lit .node, .nid => true
  | .lit .device, .did => true
  | .expr _, .nil => true
  | _, _ => false

/-- What they stand for. -/
def nilTree : NilW → Tree
  | .nil => .word Atom.nil
  | .nb => .word undefinedFloat
  | .forever => .word plusInfinity
  | .ts => .time undefinedTimestamp (BitVec.allOnes 64)
  | .st => .word undefinedString
  | .bl => .word undefinedBoolean
  | .fid => .word undefinedDeviceFunction
  | .nid => .word undefinedNode
  | .did => .word undefinedDevice

/-- Values of this kind may stand there. -/
def litOk (l : Lit) : Kind → Prop
  | .any => True
  | .lit k => k = l
  | _ => False

/-- References to objects may stand there. -/
def objOk : Kind → Prop
  | .any => True
  | .expr none => True
  | .expr (some c) => c.type = .any
  | _ => False

/-- Sets may stand there. -/
def setOk : Kind → Prop
  | .any => True
  | .set _ => True
  | _ => False

/-- Meaning of the elements that have no parts. `D`: the variables that have occurred. -/
inductive Leaf (P : Limits) (L : Lang) : Kind → List Name → Syn → Tree → List Name → Prop
  | nilw {K D n} (h : nilOk K n) : Leaf P L K D (.nilw n) (nilTree n) D
  | empty {K D} (h : setOk K) : Leaf P L K D .empty (.node none (Atom.set 0) []) D
  | this {K D} (h : objOk K) : Leaf P L K D .this (.word Atom.this) D
  | num {K D b} (h : litOk .number K) : Leaf P L K D (.num b) (.word (Atom.float b)) D
  | ts {K D v} (h : litOk .timestamp K) : Leaf P L K D (.ts v) (.time timestamp v) D
  | dur {K D v} (h : litOk .duration K) : Leaf P L K D (.dur v) (.time duration v) D
  | str {K D s} (h : litOk .string K) (hl : s.length < 256) (hs : P.str s) : Leaf P L K D (.str s) (.str s) D
  | bool {K D b} (h : litOk .boolean K) : Leaf P L K D (.bool b) (.word (Atom.boolean b)) D
  | node {K D w} (h : litOk .node K) (hd : getDescriptor w = 0xA0) : Leaf P L K D (.hex w) (.word w) D
  | device {K D w} (h : litOk .device K) (hd : getDescriptor w = 0xA1) : Leaf P L K D (.hex w) (.word w) D
  | wild {K D} (hv : L.vars) : Leaf P L K D .wild (.word (wildcard 0)) D
  | var {K D x} (hv : L.vars) (hg : L.globals x = none) (hc : L.classes x = none) (hx : x ∈ L.names) :
      Leaf P L K D (.var x) (.var x) (x :: D)
  | nameVar {K D x b} (hx : x ∈ D) (hb : P.close b) : Leaf P L K D (.name x b) (.var x) D
  | nameObj {K D x b o t} (h : objOk K) (hg : L.globals x = some (o, t)) (hc : L.classes x = none) (ho : o ∈ L.objs) :
      Leaf P L K D (.name x b) (.obj o) D
  | nameFn {K D x b c} (h : litOk .function K) (hc : L.classes x = some c) (hb : P.close b) :
      Leaf P L K D (.name x b) (.word c.atom) D

/-- The class `c` is the one that is called `h`, and is made well: as many members as its head says. -/
def IsClass (L : Lang) (h : Name) (c : Class) : Prop :=
  L.classes h = some c ∧ (L.sys h = none ∨ L.sys h = some c) ∧ c.members.length = arity c

/-- Expressions of class `c` may stand there. -/
def exprOk (h : Name) (c : Class) : Kind → Prop
  | .any => True
  | .lit k => c.type = .any ∨ c.type = k.ret
  | .expr none => True
  | .expr (some d) => d = c ∧ h = c.name
  | .set _ => False

/-- A label assigns to a variable that has occurred. -/
def LabelOk (P : Limits) (L : Lang) (K : Kind) (c : Class) (D : List Name) : Option Name → Prop
  | none => True
  | some v => L.inHlp ∧ v ∈ D ∧ P.lbl K c

/-- Elements, in places, mean trees; `D` and `D'`: the variables that have occurred before and after. -/
inductive Means (P : Limits) (L : Lang) : List (Pos × Syn) → List Name → List Tree → List Name → Prop
  | nil {D} : Means P L [] D [] D
  | leaf {p K x t r ts D D1 D2} (hk : kindOf L.classes p = some K) (h : Leaf P L K D x t D1) (hr : Means P L r D1 ts D2) :
      Means P L ((p, x) :: r) D (t :: ts) D2
  | expr {p K l h c args kids r ts D D1 D2} (hk : kindOf L.classes p = some K) (hc : IsClass L h c) (ho : exprOk h c K)
      (hl : LabelOk P L K c D l) (hn : args.length = arity c)
      (ha : Means P L ((c.members.map Pos.mem).zip args) D kids D1) (hr : Means P L r D1 ts D2) :
      Means P L ((p, .expr l h args) :: r) D (.node l c.atom kids :: ts) D2
  | exprTail {p K l h c args kids r ts D D1 D2} (hk : kindOf L.classes p = some K) (hc : IsClass L h c)
      (ho : exprOk h c K) (hl : LabelOk P L K c D l) (hn : args.length < arity c) (hp : L.pat)
      (hm : ∀ m, c.members[args.length]? = some m → (kindOf L.classes (.mem m)).isSome)
      (ha : Means P L ((c.members.map Pos.mem).zip args) D kids D1) (hr : Means P L r D1 ts D2) :
      Means P L ((p, .expr l h (args ++ [.tail])) :: r) D
        (.node l c.atom (kids ++ .word tailWildcard :: List.replicate (arity c - args.length - 1) (.word (wildcard 0))) :: ts) D2
  | setU {p K elems kids r ts D D1 D2} (hk : kindOf L.classes p = some K) (ho : K = .any ∨ K = .set none)
      (hn : 0 < elems.length ∧ elems.length < 256)
      (ha : Means P L (elems.map fun x => (Pos.any, x)) D kids D1) (hr : Means P L r D1 ts D2) :
      Means P L ((p, .set none elems) :: r) D (.node none (Atom.set (BitVec.ofNat 8 elems.length)) kids :: ts) D2
  | setT {p c elems kids r ts D D1 D2} (hk : kindOf L.classes p = some (.set (some (c, .cls))))
      (hd : getDescriptor c.atom = 0xC2) (hm : c.members.length = arity c)
      (hn : elems.length = arity c) (hne : 0 < elems.length)
      (hu : ∀ m, p = .mem m → P.use m (usesAll L.classes (elemAt (some (.set (some (c, .cls))))) 0 elems))
      (ha : Means P L ((c.members.map Pos.mem).zip elems) D kids D1) (hr : Means P L r D1 ts D2) :
      Means P L ((p, .set none elems) :: r) D (.node none c.atom kids :: ts) D2
  | setE {p c elems kids r ts D D1 D2} (hk : kindOf L.classes p = some (.set (some (c, .expression))))
      (hd : getDescriptor c.atom ≠ 0xC2) (hn : 0 < elems.length ∧ elems.length < 256)
      (hu : ∀ m, p = .mem m → P.use m (usesAll L.classes (elemAt (some (.set (some (c, .expression))))) 0 elems))
      (ha : Means P L (elems.map fun x => (Pos.ex c, x)) D kids D1) (hr : Means P L r D1 ts D2) :
      Means P L ((p, .set none elems) :: r) D (.node none (Atom.set (BitVec.ofNat 8 elems.length)) kids :: ts) D2
  | setS {p c elems kids r ts D D1 D2} (hk : kindOf L.classes p = some (.set (some (c, .set))))
      (hn : 0 < elems.length ∧ elems.length < 256)
      (hu : ∀ m, p = .mem m → P.use m (usesAll L.classes (elemAt (some (.set (some (c, .set))))) 0 elems))
      (ha : Means P L (elems.map fun x => (Pos.se c, x)) D kids D1) (hr : Means P L r D1 ts D2) :
      Means P L ((p, .set none elems) :: r) D (.node none (Atom.set (BitVec.ofNat 8 elems.length)) kids :: ts) D2

/-- A head and what follows it. -/
structure Top where
  head : Word
  kids : List Tree

/-- The code of an object or of a view reads as a head and what follows it. -/
def TopReads (code : List Word) (H : List Name) (R : List Nat) (t : Top) : Prop :=
  code[0]? = some t.head ∧ (getAtomCount t.head).toNat = t.kids.length ∧
    ∀ (k : Nat) x, t.kids[k]? = some x → Reads code H R (1 + k) x

/-- It fits the 4096 cells that can be pointed to. -/
def Top.fits (t : Top) : Prop := 1 + t.kids.length + sizes t.kids ≤ 4096

/-- Views mean trees; every view has all the members. -/
inductive ViewsMean (P : Limits) (L : Lang) (v : Class) : List Syn → List Name → List Top → Prop
  | nil {D} : ViewsMean P L v [] D []
  | cons {elems kids r ts D D1} (hn : elems.length = arity v)
      (ha : Means P L ((v.members.map Pos.mem).zip elems) D kids D1) (hf : Top.fits ⟨v.atom, kids⟩)
      (hr : ViewsMean P L v r D1 ts) : ViewsMean P L v (.set none elems :: r) D (⟨v.atom, kids⟩ :: ts)

/-- The class of the views of an object of a class. -/
def viewsOf (classes : Name → Option Class) (c : Class) : Option Class :=
  if c.name = "grp".toList then classes "grp_view".toList
  else if c.name ∈ ["ipgm".toList, "icpp_pgm".toList, "mdl".toList, "cst".toList] then classes "pgm_view".toList
  else classes "view".toList

/-- The classes: those of objects are among all, under the same names, and have no type as values. -/
structure World where
  classes : Name → Option Class
  sys : Name → Option Class
  allow : Bool
  sub : ∀ x c, sys x = some c → classes x = some c ∧ c.type = .any
  view : ∀ c v, viewsOf classes c = some v → v.type = .any

/-- Models and composite states. -/
def isHlp (c : Class) : Bool := c.name = "mdl".toList ∨ c.name = "cst".toList

/-- The language of an object of class `c`; its variables and the objects it refers to, no more than can be numbered. -/
def bodyLang (W : World) (g : Name → Option (Nat × Ret)) (c : Class) (V : List Name) (G : List Nat) : Lang :=
  ⟨W.classes, W.sys, g, isHlp c, isHlp c || W.allow && c.name ≠ "pgm".toList, isHlp c, V, G⟩

/-- The language of its views. -/
def viewLang (W : World) (g : Name → Option (Nat × Ret)) (c : Class) (V : List Name) (G : List Nat) : Lang :=
  ⟨W.classes, W.sys, g, isHlp c, W.allow, false, V, G⟩

/-- What an object means: its head and its members, and the views. -/
structure ObjTree where
  top : Top
  views : List Top

/-- `g`: the objects that have labels, this one included. -/
inductive ObjMeans (P : Limits) (W : World) (g : Name → Option (Nat × Ret)) (o : Source) : ObjTree → Prop
  | mk {c V G kids D views} (hc : W.sys o.head = some c) (hm : c.members.length = arity c) (h0 : 0 < arity c)
      (hV : V.length < 256) (hG : G.length ≤ 4096) (hn : o.args.length = arity c)
      (ha : Means P (bodyLang W g c V G) ((c.members.map Pos.mem).zip o.args) [] kids D)
      (hf : Top.fits ⟨c.atom, kids⟩)
      (hv : match o.views with
        | none => views = []
        | some xs => xs ≠ [] ∧ ∃ v, viewsOf W.classes c = some v ∧ v.name ≠ "pgm".toList ∧
            getDescriptor v.atom = 0xC2 ∧ v.members.length = arity v ∧ 0 < arity v ∧
            ViewsMean P (viewLang W g c V G) v xs D views) :
      ObjMeans P W g o ⟨⟨c.atom, kids⟩, views⟩

/-- The objects that have labels after the next one. -/
def label (sys : Name → Option Class) (g : Name → Option (Nat × Ret)) (n : Nat) (o : Source) : Name → Option (Nat × Ret) :=
  match o.label, sys o.head with
  | some l, some c => fun x => if x = l then some (n, c.type) else g x
  | _, _ => g

/-- What a source means; a label is not given twice. -/
inductive SrcMeans (P : Limits) (W : World) :
    (Name → Option (Nat × Ret)) → Nat → List Source → List ObjTree → Prop
  | nil {g n} : SrcMeans P W g n [] []
  | cons {g n o t r ts} (hl : ∀ l, o.label = some l → g l = none)
      (ho : ObjMeans P W (label W.sys g n o) o t) (hr : SrcMeans P W (label W.sys g n o) (n + 1) r ts) :
      SrcMeans P W g n (o :: r) (t :: ts)

/-- The object reads as a tree: variables have numbers of their own. -/
def ObjReads (b : Obj) (t : ObjTree) : Prop :=
  ∃ H : List Name, H.Nodup ∧ TopReads b.code H b.refs t.top ∧ List.Forall₂ (fun v t => TopReads v.code H v.refs t) b.views t.views

end Verif.Compile
