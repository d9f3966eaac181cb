import Verif.Compile.Spec

/-!
# Well typed sources

What must stand in each place of a source (`Fits`, `SrcFits`), without the compiler.
-/
namespace Verif.Typed
open Verif.Macro (Name)
open Verif.Compile Verif.Classes Verif.Atom

/-- What must stand somewhere: anything, a value of some kind, an expression of a class or of any, a set of a class or of
anything, a type. -/
inductive Want
  | any
  | lit (k : Lit)
  | expr (c : Option Class)
  | set (p : Option (Class × Iter))
  | cls

/-- The class `xpr` stands for any expression. -/
def exprWant (c : Class) : Want := if c.name = "xpr".toList then .expr none else .expr (some c)

/-- What must stand in a member. -/
def memWant (classes : Name → Option Class) (m : Member) : Option Want :=
  if m.cls = [] then
    match m.read with
    | .any => some .any
    | .number => some (.lit .number)
    | .timestamp => some (.lit .timestamp)
    | .duration => some (.lit .duration)
    | .boolean => some (.lit .boolean)
    | .string => some (.lit .string)
    | .node => some (.lit .node)
    | .device => some (.lit .device)
    | .function => some (.lit .function)
    | .expression => some (.expr none)
    | .set => some (.set none)
    | .cls => some .cls
  else
    match classes m.cls with
    | none => none
    | some c =>
      match m.read with
      | .expression => some (exprWant c)
      | .set => some (.set (some (c, m.iter)))
      | .cls => some .cls
      | _ => none

/-- What must stand in member `k`. -/
def argWant (classes : Name → Option Class) (c : Class) (k : Nat) : Option Want := (c.members[k]?).bind (memWant classes)

/-- What element `k` of a set of a class must be: `[c]`, `[::c]`, `[::c[]]`, `[::type]`. -/
def elemWant (classes : Name → Option Class) (c : Class) (i : Iter) (k : Nat) : Option Want :=
  match i with
  | .cls => argWant classes c k
  | .expression => some (exprWant c)
  | .set => some (.set (some (c, .cls)))
  | .dcls => some .cls

/-- The classes; the objects that have labels, with their classes; whether it is in a model or a composite state; whether
variables may be anywhere; the variables (with `true`) and the labels (with `false`) that are written in the object. -/
structure Ctx where
  classes : Name → Option Class
  objs : Name → Option Class
  hlp : Bool
  free : Bool
  names : Name × Bool → Prop

/-- The name is a variable or a label of the object. -/
def Ctx.bound (Γ : Ctx) (x : Name) : Prop := Γ.names (x, true) ∨ Γ.names (x, false)

/-- Variables may be in member `k`: in models and composite states, and in what a pattern is to match. -/
def Ctx.pat (Γ : Ctx) (c : Class) (k : Nat) : Bool :=
  Γ.hlp || (decide (k = 0) && ((Γ.classes "ptn".toList).map (·.atom) == some c.atom ||
    (Γ.classes "|ptn".toList).map (·.atom) == some c.atom))

/-- Which words for nothing may stand where. -/
def nilFits : Want → NilW → Bool
  | .any, _ => true
  | .lit .number, .nb => true
  | .lit .number, .forever => true
  | .lit .timestamp, .ts => true
  | .lit .string, .st => true
  | .lit .boolean, .bl => true
  | .lit .function, .fid => true
  | .lit .node, .nid => true
  | .lit .device, .did => true
  | .expr _, .nil => true
  | _, _ => false

/-- References to objects may stand there. -/
def refFits : Want → Prop
  | .any => True
  | .expr none => True
  | .expr (some c) => c.type = .any
  | _ => False

/-- The kind of a value. -/
def litOf : Syn → Option Lit
  | .num _ => some .number
  | .ts _ => some .timestamp
  | .dur _ => some .duration
  | .str _ => some .string
  | .bool _ => some .boolean
  | .hex w => if getDescriptor w = 0xA0 then some .node else if getDescriptor w = 0xA1 then some .device else none
  | _ => none

/-- Expressions of class `c` may stand there. -/
def exprFits : Want → Class → Prop
  | .any, _ => True
  | .lit k, c => c.type = .any ∨ c.type = k.ret
  | .expr none, _ => True
  | .expr (some d), c => d = c
  | _, _ => False

/-- A label in a model or a composite state is one of its variables. Not asked, unless `strict`, where anything may stand
and the label is before an operator that returns a set or a type. -/
def lblFits (Γ : Ctx) (strict : Bool) (K : Want) (c : Class) (l : Option Name) : Prop :=
  ∀ x, l = some x → Γ.hlp = true → Γ.names (x, true) ∨ strict = false ∧ K = .any ∧ (c.type = .set ∨ c.type = .cls)

/-- An element is what must stand in its place; `v`: variables may be there. Objects that are referred to where an
expression of a class must stand are of that class; this is not asked unless `strict`. -/
inductive Fits (Γ : Ctx) (strict : Bool) : Bool → Option Want → Syn → Prop
  | nilw {v K n} (h : nilFits K n = true) : Fits Γ strict v (some K) (.nilw n)
  | empty {v K} (h : K = .any ∨ ∃ p, K = .set p) : Fits Γ strict v (some K) .empty
  | this {v K} (h : refFits K) : Fits Γ strict v (some K) .this
  | lit {v K x k} (hx : litOf x = some k) (h : K = .any ∨ K = .lit k) : Fits Γ strict v (some K) x
  | wild {v K} (hv : v = true ∨ Γ.free = true) (h : K ≠ .cls) : Fits Γ strict v (some K) .wild
  | var {v K x} (hv : v = true ∨ Γ.free = true) (h : K ≠ .cls) : Fits Γ strict v (some K) (.var x)
  | name {v K x b} (hx : Γ.bound x) (h : K ≠ .cls) : Fits Γ strict v (some K) (.name x b)
  | obj {v K x b c} (hx : Γ.objs x = some c) (h : refFits K) (hs : strict = true → ∀ d, K = .expr (some d) → d = c) :
      Fits Γ strict v (some K) (.name x b)
  | fn {v K x b} (hx : Γ.classes x ≠ none) (h : K = .any ∨ K = .lit .function) : Fits Γ strict v (some K) (.name x b)
  | cls {v K l c} (hc : Γ.classes c ≠ none) (h : K = .any ∨ K = .cls) : Fits Γ strict v (some K) (.cls l c)
  | expr {v K l h c args} (hc : Γ.classes h = some c) (ho : exprFits K c) (hl : lblFits Γ strict K c l)
      (hn : args.length = arity c)
      (ha : ∀ (k : Nat) x, args[k]? = some x → Fits Γ strict (v || Γ.pat c k) (argWant Γ.classes c k) x) :
      Fits Γ strict v (some K) (.expr l h args)
  | exprTail {v K l h c args} (hc : Γ.classes h = some c) (ho : exprFits K c) (hl : lblFits Γ strict K c l)
      (hn : args.length < arity c) (hv : (v || Γ.pat c args.length) = true)
      (ha : ∀ (k : Nat) x, args[k]? = some x → Fits Γ strict (v || Γ.pat c k) (argWant Γ.classes c k) x) :
      Fits Γ strict v (some K) (.expr l h (args ++ [.tail]))
  | setU {v K l elems} (h : K = .any ∨ K = .set none) (hn : elems ≠ [])
      (ha : ∀ (k : Nat) x, elems[k]? = some x → Fits Γ strict v (some .any) x) : Fits Γ strict v (some K) (.set l elems)
  | setC {v c i l elems} (hn : elems ≠ []) (hl : i = .cls → elems.length = arity c)
      (ha : ∀ (k : Nat) x, elems[k]? = some x → Fits Γ strict v (elemWant Γ.classes c i k) x) :
      Fits Γ strict v (some (.set (some (c, i)))) (.set l elems)

mutual
/-- The variables (with `true`) and the labels (with `false`) that are written in an element. -/
def names : Syn → List (Name × Bool)
  | .var x => [(x, true)]
  | .cls l _ => [(l, false)]
  | .expr l _ args => l.toList.map (·, false) ++ namesAll args
  | .set l elems => l.toList.map (·, false) ++ namesAll elems
  | _ => []
/-- The same for several. -/
def namesAll : List Syn → List (Name × Bool)
  | [] => []
  | x :: r => names x ++ namesAll r
end

/-- The text of an object: members and views. -/
def whole (o : Source) : List Syn := o.args ++ o.views.getD []

/-- Within an object of class `c`. -/
def inside (W : World) (objs : Name → Option Class) (c : Class) (o : Source) : Ctx :=
  ⟨W.classes, objs, isHlp c, W.allow, fun q => q ∈ namesAll (whole o)⟩

/-- The objects that have labels, after one of class `c`. -/
def labelled (objs : Name → Option Class) (c : Class) (o : Source) : Name → Option Class :=
  match o.label with
  | some l => fun x => if x = l then some c else objs x
  | none => objs

/-- A source is well typed: every object is of a class of objects, has a label of its own or none, all members, as they
must be, and its views, if any, have all members. -/
inductive SrcFits (strict : Bool) (W : World) : (Name → Option Class) → List Source → Prop
  | nil {g} : SrcFits strict W g []
  | cons {g o c r} (hc : W.sys o.head = some c) (hl : ∀ l, o.label = some l → g l = none)
      (ho : Fits (inside W (labelled g c o) c o) strict false (some (.expr none)) (.expr none o.head o.args))
      (hv : ∀ xs, o.views = some xs → xs ≠ [] ∧ ∃ v, viewsOf W.classes c = some v ∧
        ∀ (k : Nat) x, xs[k]? = some x → Fits (inside W (labelled g c o) c o) strict false (some (.set (some (v, .cls)))) x)
      (hr : SrcFits strict W (labelled g c o) r) : SrcFits strict W g (o :: r)

/-- Classes are known by their names. -/
def Named (W : World) : Prop := ∀ x c, W.classes x = some c → c.name = x

mutual
/-- `::` only stands after members of expressions; in a set that a member reads by a class, no member uses that class in
another way. -/
def Tidy (classes : Name → Option Class) (p : Pos) : Syn → Prop
  | .tail => False
  | .expr _ h args => TidyAll classes true (argAt (classes h)) 0 args
  | .set _ elems =>
    (∀ m, p = .mem m → ∀ q ∈ usesAll classes (elemAt (kindOf classes p)) 0 elems, q.1 = m.cls → q.2 = m.iter) ∧
      TidyAll classes false (elemAt (kindOf classes p)) 0 elems
  | _ => True
/-- The same for all from the `n`-th on; `t`: there may be `::` after them. -/
def TidyAll (classes : Name → Option Class) (t : Bool) (pos : Nat → Pos) (n : Nat) : List Syn → Prop
  | [] => True
  | x :: r => (t = true ∧ x = .tail ∧ r = [] ∨ Tidy classes (pos n) x) ∧ TidyAll classes t pos (n + 1) r
end

/-- The same for a source. -/
def TidySrc (W : World) (src : List Source) : Prop :=
  ∀ o ∈ src, Tidy W.classes .any (.expr none o.head o.args) ∧
    ∀ xs, o.views = some xs → ∀ x ∈ xs, ∀ c v, W.sys o.head = some c → viewsOf W.classes c = some v → Tidy W.classes (.se v) x

end Verif.Typed
