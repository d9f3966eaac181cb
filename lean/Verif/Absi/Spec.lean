import Verif.Absi.Model
/-!
# What is wanted of the abstraction of an instance (C178)

"contains the values for the abstraction" (`/repo/r_exec/pattern_extractor.h:102, 125`).
-/
namespace Verif.Absi

/-- What a word stands for. -/
def Word.value (B : Nat → Val) : Word → Val
  | .val v => v
  | .vl i => B i

/-- What an argument stands for: a value, or a structure of values. -/
def Arg.value (B : Nat → Val) : Arg → Val ⊕ (Bool × List Val)
  | .w x => .inl (x.value B)
  | .st ti xs => .inr (ti, xs.map (Word.value B))

/-- The values of the abstraction in the bindings are those of the instance, at all places, and all else is the same. -/
def Fits (B : Nat → Val) (a f : Inst) : Prop :=
  a.anti = f.anti ∧ a.after = f.after ∧ a.before = f.before ∧ a.op = f.op ∧ a.ref = f.ref ∧ a.wr = f.wr ∧ a.thr = f.thr ∧
  a.tpl.map (Arg.value B) = f.tpl.map (Arg.value B) ∧ a.exposed.map (Arg.value B) = f.exposed.map (Arg.value B)

/-- The variables of an abstraction. -/
def names (a : Inst) : List Arg := a.tpl ++ a.exposed

/-- C178: whatever a composite state is instantiated with, the variables of the abstraction stand for the values of the instance, and
different places have different variables. -/
def C178_full : Prop :=
  ∀ (op : Op) (h : Hlp) (B : Nat → Val) (wr : Bool), h.after ∈ h.vars → h.before ∈ h.vars → h.after ≠ h.before →
    Fits B (abstracted (build op h B wr)) (build op h B wr) ∧ (names (abstracted (build op h B wr))).Nodup

/-- As compiled: the template arguments are the variables 0, 1, ... and the times are later ones. -/
def Ordered (h : Hlp) : Prop :=
  h.tpl = (List.range h.tpl.length).map TArg.var ∧ h.tpl.length ≤ h.after ∧ h.tpl.length ≤ h.before ∧ h.after ≠ h.before ∧
  h.after ∈ h.vars ∧ h.before ∈ h.vars

/-- No variable comes after the times of the first fact. -/
def TimesLast (h : Hlp) : Prop := ∀ i ∈ h.vars, i ≤ h.after ∨ i ≤ h.before

/-- The times of the first fact are next to each other. -/
def Adjacent (h : Hlp) : Prop := h.before = h.after + 1 ∨ h.after = h.before + 1

/-- The `i`-th number when `a` and `b` are left out. -/
def place (a b i : Nat) : Nat := if i < min a b then i else if i + 1 < max a b then i + 1 else i + 2

/-- The number of variables: one more than the largest. -/
def Total (h : Hlp) (n : Nat) : Prop := (∀ i ∈ h.vars, i < n) ∧ (∀ i, TArg.var i ∈ h.tpl → i < n) ∧ n - 1 ∈ h.vars

end Verif.Absi
