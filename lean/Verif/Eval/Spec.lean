import Verif.Eval.Model
import Verif.Ctx.Spec
/-!
# The values of expressions (C163), guards of programs (C164) and of patterns (C165)
-/
namespace Verif.Eval
open Verif.Atom Verif.Ctx

/-- An atom, or a timestamp, duration, string or structure of atoms. -/
def Opd.ok : Opd → Prop
  | .atom w => kind w = .atom ∨ kind w = .wild
  | .flat h ws => kind h = .raw ws.length ∨ (kind h = .struct ws.length ∧ ∀ w ∈ ws, kind w = .atom)

/-- How many words a value takes in the array of values. -/
def Opd.size : Opd → Nat
  | .atom _ => 0
  | .flat _ ws => ws.length + 1

/-- The value is there. -/
def Is (m : Mem) (d : Ctx) (o : Opd) : Prop :=
  o.ok ∧ d.head = false ∧
  match o with
  | .atom w => m.word d = some w
  | .flat h ws => Ctx.wordsAt m d 0 (ws.length + 1) = some (h :: ws)

/-- The operator, or else its overload, yields the value. -/
def Yields (L : Lang) (w : Word) (vs : List Opd) (o : Opd) : Prop :=
  L.std (opc w) vs = .ok o ∨ ∃ x f, L.std (opc w) vs = .fail x ∧ L.over (opc w) = some f ∧ f vs = .ok o

/-- The operator fails, and so does its overload if it has one. -/
def Fails (L : Lang) (w : Word) (vs : List Opd) : Prop :=
  ∃ x, L.std (opc w) vs = .fail x ∧ (L.over (opc w) = none ∨ ∃ f y, L.over (opc w) = some f ∧ f vs = .fail y)

inductive Job
  /-- a member: a value, or a pointer to a value or an expression -/
  | cell (i : Nat)
  /-- an expression, at its head -/
  | expr (p : Nat)
  /-- consecutive members -/
  | cells (i n : Nat)

/-- What expressions are worth, by the program as it was written: the value of an expression is what its
operator yields for the values of the operands. `none` stands for failure. The number is that of the words
of all the results. -/
inductive Sem (L : Lang) (m : Mem) : Job → Nat → Option (List Opd) → Prop
  | value {i d o} : Go m ⟨.stem, i⟩ [] d → Is m d o → Sem L m (.cell i) 0 (some [o])
  | ptr {i j k r} : m.at ⟨.stem, i⟩ = some (.iptr j) → m.at ⟨.stem, j⟩ = some .op → Sem L m (.expr j) k r → Sem L m (.cell i) k r
  | var {i v j k r} : m.at ⟨.stem, i⟩ = some (.codevl v) → m.at ⟨.stem, v⟩ = some (.iptr j) → m.at ⟨.stem, j⟩ = some .op →
      Sem L m (.expr j) k r → Sem L m (.cell i) k r
  | var' {i v u k r} : m.at ⟨.stem, i⟩ = some (.codevl v) → m.at ⟨.stem, v⟩ = some (.codevl u) → Sem L m (.cell v) k r → Sem L m (.cell i) k r
  | op {p w k vs o} : m.word ⟨.stem, p⟩ = some w → kind w = .op → L.syn (opc w) = false → L.red (opc w) = false →
      Sem L m (.cells (p + 1) (getAtomCount w).toNat) k (some vs) → Yields L w vs o → o.ok → Sem L m (.expr p) (k + o.size) (some [o])
  | opFails {p w k vs} : m.word ⟨.stem, p⟩ = some w → kind w = .op → L.syn (opc w) = false → L.red (opc w) = false →
      Sem L m (.cells (p + 1) (getAtomCount w).toNat) k (some vs) → Fails L w vs → Sem L m (.expr p) k none
  | opdFails {p w k} : m.word ⟨.stem, p⟩ = some w → kind w = .op → L.syn (opc w) = false → L.red (opc w) = false →
      Sem L m (.cells (p + 1) (getAtomCount w).toNat) k none → Sem L m (.expr p) k none
  | nil {i} : Sem L m (.cells i 0) 0 (some [])
  | cons {i n k l o vs} : Sem L m (.cell i) k (some [o]) → Sem L m (.cells (i + 1) n) l (some vs) → Sem L m (.cells i (n + 1)) (k + l) (some (o :: vs))
  | fails {i n k} : Sem L m (.cell i) k none → Sem L m (.cells i (n + 1)) k none
  | fails' {i n k l o} : Sem L m (.cell i) k (some [o]) → Sem L m (.cells (i + 1) n) l none → Sem L m (.cells i (n + 1)) (k + l) none

/-- Nothing but expressions changes: they are replaced by their values. -/
structure Kept (m : Mem) (s : St) : Prop where
  rest : s.m.objs = m.objs ∧ s.m.pgm = m.pgm ∧ s.m.ipgm = m.ipgm ∧ s.m.inputs = m.inputs ∧ s.m.prods = m.prods
  code : ∀ i, m.at ⟨.stem, i⟩ ≠ some .op → s.m.stem i = m.stem i
  values : ∀ i w, m.values i = some w → s.m.values i = some w

/-- The words in the array of values. -/
def Sized (s : St) : Prop := ∀ i, s.nv ≤ i → s.m.values i = none

/-- The expression is replaced by a value; to evaluate it again changes nothing. -/
def Evaluated (L : Lang) (N : Nat) (s : St) (i : Nat) (o : Opd) : Prop :=
  (∃ d, derefE L N s i = some (s, some d) ∧ Is s.m d o) ∧ evaluate L N s i = some (s, true)

/-- C163: an expression is evaluated to the value its operators give it; then it stands for this value, and
nothing else changed; where an operator fails, the evaluation fails. -/
def C163_full : Prop :=
  ∀ (L : Lang) (s : St), Sized s → ∀ (i k : Nat),
    (∀ o, Sem L s.m (.cell i) k (some [o]) → ∃ n, ∀ N ≥ n, ∃ s', evaluate L N s i = some (s', true) ∧ Evaluated L N s' i o ∧ Kept s.m s') ∧
    (Sem L s.m (.cell i) k none → ∃ n, ∀ N ≥ n, ∃ s', evaluate L N s i = some (s', false))

def false' (o : Opd) : Prop := ∃ w, o = .atom w ∧ w.toNat / 2 ^ 24 = 0x81 ∧ w.toNat % 2 ^ 8 = 0

/-- All guards are evaluated and none is false. -/
def Pass (r : Option (List Opd)) : Prop := ∃ vs, r = some vs ∧ ∀ o ∈ vs, ¬ false' o

/-- A set of guards: what its members are worth. -/
def Guards (L : Lang) (m : Mem) (g k : Nat) (r : Option (List Opd)) : Prop :=
  ∃ w n, m.word ⟨.stem, g⟩ = some w ∧ w.toNat / 2 ^ 24 = 0xC1 ∧ kind w = .struct n ∧ Sem L m (.cells (g + 1) n) k r

/-- C164: a program goes on if and only if all its guards are evaluated and none is false. -/
def C164_full : Prop :=
  ∀ (L : Lang) (s : St), Sized s → ∀ (g k : Nat) (r : Option (List Opd)), Guards L s.m g k r →
    ∃ n, ∀ N ≥ n, ∃ s' b, checkGuards L N s g = some (s', b) ∧ (b = true ↔ Pass r)

/-- C165: so does a pattern, of a program or in red. -/
def C165_full : Prop :=
  ∀ (L : Lang) (s : St), Sized s → ∀ (g k : Nat) (r : Option (List Opd)), Guards L s.m g k r →
    ∃ n, ∀ N ≥ n, (∃ s' b, patternGuards L N s g = some (s', b) ∧ (b = true ↔ Pass r)) ∧ ∃ s' b, redGuards L N s g = some (s', b) ∧ (b = true ↔ Pass r)

end Verif.Eval
