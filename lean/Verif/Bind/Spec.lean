import Verif.Bind.Model
import Verif.Instance.Lemmas
/-! What it means to bind a pattern. -/
namespace Verif.Bind
open Verif.Atom Verif.Words Verif.BindMap Verif.Values Verif.Instance

/-- The word after `i`, or after its data. -/
def after (i : Nat) (w : Word) : Nat := i + 1 + if raw w then count w else 0

/-- Word `j` is no data of a time, duration or text, reading the words from `s` on. -/
inductive Sign (c : Code) (s : Nat) : Nat → Prop
  | first : Sign c s s
  | next {i : Nat} {w : Word} (h : Sign c s i) (hw : c[i]? = some w) : Sign c s (after i w)

/-- Word `j` of the code of a pattern is the variable `v`. -/
def VarAt (c : Code) (j v : Nat) : Prop :=
  Sign c 1 j ∧ ∃ w, c[j]? = some w ∧ getDescriptor w = 0x86 ∧ (asIndex w).toNat = v

/-- A variable in a pattern or what it refers to, apart from entities, ontologies, models and states. -/
inductive HasVar (K : Kinds) (h : List Obj) : Nat → Prop
  | here {p : Nat} {o : Obj} {w : Word} {j v : Nat} (ho : h[p]? = some o) (hw : o.code[0]? = some w)
      (hk : asOpcode w ∉ [K.ont, K.ent, K.mdl, K.cst]) (hv : VarAt o.code j v) : HasVar K h p
  | ref {p r : Nat} {o : Obj} {w : Word} (ho : h[p]? = some o) (hw : o.code[0]? = some w)
      (hk : asOpcode w ∉ [K.ont, K.ent, K.mdl, K.cst]) (hr : r ∈ o.refs) (hv : HasVar K h r) : HasVar K h p

/-- A pattern: finite, apart from entities, ontologies, models and states; the data of times, durations and
texts is complete; variables are below `n`. -/
inductive Pattern (K : Kinds) (n : Nat) (h : List Obj) : Nat → Prop
  | fixed {p : Nat} {o : Obj} {w : Word} (ho : h[p]? = some o) (hw : o.code[0]? = some w)
      (hk : asOpcode w ∈ [K.ont, K.ent, K.mdl, K.cst]) : Pattern K n h p
  | mk {p : Nat} {o : Obj} {w : Word} (ho : h[p]? = some o) (hw : o.code[0]? = some w)
      (hdata : ∀ j w, Sign o.code 1 j → o.code[j]? = some w → raw w = true → j + count w < o.code.length)
      (hvar : ∀ j v, VarAt o.code j v → v < n)
      (href : ∀ r, r ∈ o.refs → Pattern K n h r) : Pattern K n h p

/-- The code `c'` with references `rs` is `c` with the values of the variables: every word of `c` is kept,
except the variables, whose place is taken by what stands for their value. -/
structure Filled (m : BMap) (c c' : Code) (rs : List Nat) : Prop where
  len : c.length ≤ c'.length
  keep : ∀ j, j < c.length → (∀ v, ¬ VarAt c j v) → c'[j]? = c[j]?
  fill : ∀ j v, VarAt c j v → ∃ s w, m.slots[v]? = some s ∧ c'[j]? = some w ∧ Written c' rs w s

/-- `p'` in `h'` is the pattern `p` in `h` with the values of its variables; a pattern without variables is left
as it is. Objects of more than 4096 words or references are not covered: pointers have 12 bits. -/
inductive Bound (K : Kinds) (m : BMap) (h h' : List Obj) : Nat → Nat → Prop
  | same {p : Nat} (hn : ¬ HasVar K h p) : Bound K m h h' p p
  | new {p p' : Nat} {o o' : Obj} (hv : HasVar K h p) (ho : h[p]? = some o) (ho' : h'[p']? = some o')
      (hnew : h.length ≤ p')
      (hcode : o'.code.length ≤ 4096 → o'.refs.length ≤ 4096 → Filled m o.code o'.code o'.refs)
      (hlen : o.refs.length ≤ o'.refs.length)
      (hrefs : ∀ (i : Nat) r r', o.refs[i]? = some r → o'.refs[i]? = some r' → Bound K m h h' r r') :
      Bound K m h h' p p'

end Verif.Bind
