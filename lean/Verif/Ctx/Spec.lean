import Verif.Ctx.Model
/-!
# The values of expressions (C146 to C148)
-/
namespace Verif.Ctx
open Verif.Atom

/-- Words that are no pointers. -/
def Kind.final : Kind → Bool
  | .wild => true
  | .raw _ => true
  | .struct _ => true
  | .atom => true
  | _ => false

def Final (m : Mem) (c : Ctx) : Prop := ∃ k, m.at c = some k ∧ k.final = true

/-- Consecutive words. -/
def wordsAt (m : Mem) (c : Ctx) : (i n : Nat) → Option (List Word)
  | _, 0 => some []
  | i, n + 1 => (m.word (c.child i)).bind fun w => (wordsAt m c (i + 1) n).map (w :: ·)

/-- Following pointers: `Go m c [] d` says that `c` stands for `d`; with a path, that the member of the
member ... of what `c` stands for stands for `d`. -/
inductive Go (m : Mem) : Ctx → List Nat → Ctx → Prop
  | here {c} : Final m c → Go m c [] c
  | iptr {c k d} : m.at c = some (.iptr k) → Go m ⟨c.sp, k⟩ [] d → Go m c [] d
  | rptr {c k o} : m.at c = some (.rptr k) → (m.objs (m.object c)).refs[k]? = some o → Final m ⟨.obj o, 0⟩ → Go m c [] ⟨.obj o, 0⟩
  | ipgm {c k d} : m.at c = some (.ipgm k) → Go m ⟨.obj m.ipgm, k⟩ [] d → Go m c [] d
  | inobj {c a k o d} : m.at c = some (.inobj a k) → m.inputs[a]? = some o → Go m ⟨.obj o, k⟩ [] d → Go m c [] d
  | dinobj {c r k p d} : m.at c = some (.dinobj r k) → Go m ⟨c.sp, r⟩ [] p → Go m ⟨.obj (m.object p), k⟩ [] d → Go m c [] d
  | value {c k} : m.at c = some (.value k) → (c.sp = .stem ∨ c.sp = .val) → Final m ⟨.val, k⟩ → Go m c [] ⟨.val, k⟩
  | prod {c k o} : m.at c = some (.prod k) → m.prods[k]? = some o → Final m ⟨.obj o, 0⟩ → Go m c [] ⟨.obj o, 0⟩
  | codevl {c k d} : m.at c = some (.codevl k) → Go m ⟨c.sp, k⟩ [] d → Go m c [] d
  | this {c} : m.at c = some .this → Final m ⟨.obj m.ipgm, 0⟩ → Go m c [] ⟨.obj m.ipgm, 0⟩
  | cptr {c n ws d} : m.at c = some (.cptr n) → wordsAt m c 2 (n - 1) = some ws → (∀ w ∈ ws, kind w ≠ .special) →
      Go m (c.child 1) (ws.map fun w => w.toNat % 4096) d → Go m c [] d
  | walk {c e k ks d} : Go m c [] e → Go m (e.child k) ks d → Go m c (k :: ks) d

/-- A value: an atom (and where it is), a timestamp, duration or string, a structure (an object if it has an
identity) with its members; `nil` and `cons` are for lists of members. -/
inductive Val
  | atom (c : Ctx) (w : Word)
  | raw (h : Word) (ws : List Word)
  | node (id : Option Nat) (h : Word) (ks : Val)
  | nil
  | cons (v vs : Val)

def Val.length : Val → Nat
  | .cons _ vs => vs.length + 1
  | _ => 0

def ident (c : Ctx) : Option Nat :=
  match c.sp with
  | .obj o => if c.i = 0 then some o else none
  | _ => none

/-- The value a context stands for; with `true`, the list of values from a context on. -/
inductive Den (m : Mem) : Bool → Ctx → Val → Prop
  | atom {c d w} : Go m c [] d → m.word d = some w → kind w = .atom ∨ kind w = .wild → d.head = false → Den m false c (.atom d w)
  | raw {c d h n ws} : Go m c [] d → m.word d = some h → kind h = .raw n → d.head = false → wordsAt m d 1 n = some ws → Den m false c (.raw h ws)
  | node {c d h n ks} : Go m c [] d → m.word d = some h → kind h = .struct n → Den m true (d.child 1) ks → ks.length = n →
      Den m false c (.node (ident d) h ks)
  | nil {c} : Den m true c .nil
  | cons {c v vs} : Den m false c v → Den m true (c.child 1) vs → Den m true c (.cons v vs)

/-- Values that are the same: objects are compared by identity with objects, by their structure with
structures. -/
def same : Val → Val → Bool
  | .atom _ a, .atom _ b => a == b
  | .raw h ws, .raw g us => h == g && ws == us
  | .node i h ks, .node j g ls => if i.isSome && j.isSome then i == j else h == g && same ks ls
  | .nil, .nil => true
  | .cons v vs, .cons w ws => same v w && same vs ws
  | _, _ => false

/-- C146: = says of any two values whether they are the same. -/
def C146_full : Prop :=
  ∀ (m : Mem) (c d : Ctx) (v w : Val), Den m false c v → Den m false d w → ∃ n, ∀ N ≥ n, equ m N c d = some (same v w)

/-- A wildcard or a tail wildcard. -/
def hole (w : Word) : Bool := w.toNat / 2 ^ 24 == 0x82 || w.toNat / 2 ^ 24 == 0x83

/-- The input is an instance of the pattern, wildcards aside: timestamps to within the tolerance that may
be in the last three bits of the head. -/
def inst : Val → Val → Bool
  | .atom _ a, .atom _ b => hole a || a == b
  | .atom _ a, .raw .. => hole a
  | .atom _ a, .node .. => hole a
  | .raw h ws, .raw g us => h.toNat / 8 == g.toNat / 8 && ws == us
  | .node i h ks, .node j g ls => if i.isSome && j.isSome then i == j else h == g && inst ks ls
  | .nil, .nil => true
  | .cons v vs, .cons w ws => inst v w && inst vs ws
  | _, _ => false

/-- What the wildcards of a pattern stand for. -/
def holes : Val → Val → List (Ctx × Val)
  | .atom c a, v => if hole a then [(c, v)] else []
  | .node _ _ ks, .node _ _ ls => holes ks ls
  | .cons v vs, .cons w ws => holes v w ++ holes vs ws
  | _, _ => []

/-- A variable stands for the same value everywhere. -/
def consistent (p v : Val) : Prop := ∀ a ∈ holes p v, ∀ b ∈ holes p v, a.1 = b.1 → same a.2 b.2 = true

/-- C147: an input matches a skeleton if and only if it is an instance of it, in which every variable
stands for one value. -/
def C147_full : Prop :=
  ∀ (m : Mem) (p x : Ctx) (v w : Val), Final m p → Final m x → Den m false p v → Den m false x w →
    ∃ n, ∀ N ≥ n, ∃ b, mat m N p x = some b ∧ (b = true ↔ inst v w = true ∧ consistent v w)

/-- The same value, but for where its atoms are. -/
def alike : Val → Val → Prop
  | .atom _ a, .atom _ b => a = b
  | .raw h ws, .raw g us => h = g ∧ ws = us
  | .node i h ks, .node j g ls => i = j ∧ h = g ∧ alike ks ls
  | .nil, .nil => True
  | .cons v vs, .cons w ws => alike v w ∧ alike vs ws
  | _, _ => False

/-- Memory with a new object. -/
def Mem.new (m : Mem) (o : Nat) (d : Obj) : Mem := { m with objs := fun p => if p = o then d else m.objs p }

def fresh (m : Mem) (o : Nat) : Prop := (∀ i, (m.objs o).code i = none) ∧ m.pgm ≠ o

/-- C148: the object built from an expression has the members the expression has: the same atoms,
timestamps, durations and strings, the same objects, and structures of such. -/
def C148_full : Prop :=
  ∀ (m : Mem) (c : Ctx) (h : Word) (n : Nat) (ks : Val), m.word c = some h → kind h = .struct n → Den m true (c.child 1) ks → ks.length = n →
    ∃ k, ∀ N ≥ k, ∃ d, build m N c = some d ∧
      ∀ o, fresh m o → ∃ ls, Den (m.new o d) false ⟨.obj o, 0⟩ (.node (some o) h ls) ∧ alike ks ls

end Verif.Ctx
