import Verif.Decomp.Model
import Verif.Compile.Spec

/-!
# Sources that are written as they were meant

Which parts of a source come back from the decompiler with the same meaning.
-/
namespace Verif.Decomp
open Verif.Macro Verif.Classes Verif.Atom Verif.Compile

/-- Expressions with this head are written under this name, and not as models are. -/
def HeadOk (T : Meta) (h : Name) (a : Word) : Prop :=
  headName T a = some h ∧ ∃ r, rend T (asOpcode a).toNat = some r ∧ r ≠ .hlp ∧ (r = .icmd → T.inj.isSome)

/-- They are written as commands to be executed are. -/
def isCmd (T : Meta) (a : Word) : Bool := rend T (asOpcode a).toNat = some .icmd

/-- What that depends on: the classes, the objects that have labels, and whether variables may be used. -/
structure Ctx where
  classes : Name → Option Class
  globals : Name → Option (Nat × Ret)
  vars : Bool

/-- That of a language. -/
def ctx (L : Lang) : Ctx := ⟨L.classes, L.globals, L.vars⟩

mutual
/-- What is written as it was meant. `post`: variables are written with a colon; `cmd`: in a set of a command;
`last`: as the last of a set. Left out: `|nb`, `|ts`, `|st`, `|nid`, numbers that are not read as they are written, the
least time, strings that cannot be read back, new variables in guards, labels elsewhere, names of variables and of
functions at the end of a set, long sets in commands. -/
def plain (T : Meta) (L : Ctx) (post cmd last : Bool) : Syn → Prop
  | .nilw k => k = .nil ∨ k = .forever ∨ k = .bl ∨ k = .fid ∨ k = .did
  | .num b => Atom.float b ≠ 0x3FFFFFFF ∧
      (Atom.float b = plusInfinity ∨ ∃ b', T.shown (asFloat (Atom.float b)) = some b' ∧ Atom.float b' = Atom.float b)
  | .ts v => v ≠ 0x8000000000000000
  | .dur v => v ≠ 0x8000000000000000
  | .str s => s.length < 255 ∧ (0 : BitVec 8) ∉ s ∧ (34 : BitVec 8) ∉ s
  | .hex w => w ≠ undefinedNode
  | .var _ => post = true
  | .name x _ =>
    (∀ c, L.classes x = some c → last = false ∧ getDescriptor c.atom = 0xA2 ∧ T.functionNames[(asOpcode c.atom).toNat]? = some x) ∧
    (L.globals x = none → L.classes x = none → if post then L.vars = true else last = false)
  | .expr l h args => (l.isSome → post = false) ∧ (∀ c, L.classes h = some c → HeadOk T h c.atom) ∧
      plains T L post ((L.classes h).any fun c => isCmd T c.atom) false args
  | .set _ elems => (cmd = true → elems.length ≤ 13) ∧ plains T L post cmd true elems
  | _ => True
/-- The same of several. -/
def plains (T : Meta) (L : Ctx) (post cmd inSet : Bool) : List Syn → Prop
  | [] => True
  | x :: r => plain T L post cmd (inSet && r.isEmpty) x ∧ plains T L post cmd inSet r
end

/-- The members of a model or a composite state from the `k`-th on: from the third on there is no colon. -/
def plainHlp (T : Meta) (L : Ctx) (k : Nat) : List Syn → Prop
  | [] => True
  | x :: r => plain T L (decide (k < 2)) false false x ∧ plainHlp T L (k + 1) r

/-- The members of an object. -/
def plainTop (T : Meta) (L : Ctx) (r : Rend) (cmd : Bool) (xs : List Syn) : Prop :=
  if r = .hlp then plainHlp T L 0 xs else plains T L true cmd false xs

/-- The views of an object: they have from two to thirteen members. -/
def plainViews (T : Meta) (L : Ctx) : List Syn → Prop
  | [] => True
  | .set _ elems :: r => (1 < elems.length ∧ elems.length ≤ 13 ∧ plains T L true false true elems) ∧ plainViews T L r
  | _ :: _ => False

/-- An object whose members, views and head are written as they were meant. -/
def plainObj (T : Meta) (W : World) (g : Name → Option (Nat × Ret)) (o : Source) : Prop :=
  ∀ c, W.sys o.head = some c →
    headName T c.atom = some o.head ∧
    (∃ r, rend T (asOpcode c.atom).toNat = some r ∧ (r = .icmd → T.inj.isSome) ∧
      plainTop T (ctx (bodyLang W g c [] [])) r (isCmd T c.atom) o.args) ∧
    ∀ xs, o.views = some xs → plainViews T (ctx (viewLang W g c [] [])) xs

/-- A source of such objects. -/
def plainSrc (T : Meta) (W : World) : (Name → Option (Nat × Ret)) → Nat → List Source → Prop
  | _, _, [] => True
  | g, n, o :: r => plainObj T W (label W.sys g n o) o ∧ plainSrc T W (label W.sys g n o) (n + 1) r

/-- Labels: every object has its own, neither the name of a class nor one that variables are written under. -/
structure Labelled (T : Meta) (W : World) (n : Nat) : Prop where
  all : ∀ k < n, ∃ x, T.names k = some x ∧ W.classes x = none ∧ ∀ v, x ≠ varName v
  apart : ∀ j < n, ∀ k < n, T.names j = T.names k → j = k
  vars : ∀ v, W.classes (varName v) = none

end Verif.Decomp
