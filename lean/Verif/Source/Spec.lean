import Verif.Source.Model
/-!
# What texts are to be read, and how

Independent of the reader: words, labels, and the structures that can be written.
-/
namespace Verif.Source

/-- A character that is part of a word. -/
def Plain (c : Char) : Prop :=
  32 < c.toNat ∧ c.toNat < 127 ∧ c ≠ '!' ∧ c ≠ '"' ∧ c ≠ ';' ∧ c ≠ '(' ∧ c ≠ ')' ∧ c ≠ '{' ∧ c ≠ '}' ∧ c ≠ '[' ∧ c ≠ ']' ∧
    c ≠ '|'

instance (c : Char) : Decidable (Plain c) := by unfold Plain; infer_instance

/-- A word: plain characters, strings in quotes, and `|[]`. -/
inductive Word : List Char → Prop
  | nil : Word []
  | plain (c : Char) (w : List Char) : Plain c → Word w → Word (c :: w)
  | quoted (q w : List Char) : (∀ c ∈ q, c ≠ '"' ∧ c ≠ '\n' ∧ c ≠ '\r') → Word w → Word ('"' :: q ++ '"' :: w)
  | bar (w : List Char) : Word w → Word ('|' :: '[' :: ']' :: w)

/-- No label, or a word and a colon. -/
def Label (lab : List Char) : Prop := lab = [] ∨ ∃ w, Word w ∧ lab = w ++ [':']

/-- No tail, or a colon and plain characters. -/
def Tail (t : List Char) : Prop := t = [] ∨ ∃ w, (∀ c ∈ w, Plain c) ∧ t = ':' :: w

/-- The structures that can be written: words, and expressions, developments and sets of such with labels and
tails. -/
inductive Written : Tree → Prop
  | atom (w : List Char) : Word w → w ≠ [] → Written (.mk .atom [] w [] [])
  | struct (lab cmd tail : List Char) (args : List Tree) : Label lab → Word cmd → cmd ≠ [] → Tail tail →
    (∀ t ∈ args, Written t) → Written (.mk .struct lab cmd tail args)
  | development (lab tail : List Char) (args : List Tree) : Label lab → Tail tail → (∀ t ∈ args, Written t) →
    Written (.mk .development lab [] tail args)
  | set (lab : List Char) (args : List Tree) : Label lab → (∀ t ∈ args, Written t) → Written (.mk .set lab [] [] args)

/-- The same without tails, and without labels of empty sets. -/
inductive Fine : Tree → Prop
  | atom (w : List Char) : Word w → w ≠ [] → Fine (.mk .atom [] w [] [])
  | struct (lab cmd : List Char) (args : List Tree) : Label lab → Word cmd → cmd ≠ [] → (∀ t ∈ args, Fine t) →
    Fine (.mk .struct lab cmd [] args)
  | development (lab : List Char) (args : List Tree) : Label lab → (∀ t ∈ args, Fine t) →
    Fine (.mk .development lab [] [] args)
  | set (lab : List Char) (args : List Tree) : Label lab → (args = [] → lab = []) → (∀ t ∈ args, Fine t) →
    Fine (.mk .set lab [] [] args)

def Tree.kind : Tree → Kind | .mk k _ _ _ _ => k
def Tree.cmd : Tree → List Char | .mk _ _ c _ _ => c
def Tree.args : Tree → List Tree | .mk _ _ _ _ a => a

/-- The characters after the last end of a line, last first. -/
def lastLine (cs : List Char) : List Char := cs.reverse.takeWhile fun c => c != '\n' && c != '\r'

/-- No quotes in the last line, and no space at the end. -/
def Closed (cs : List Char) : Prop := '"' ∉ lastLine cs ∧ cs.getLast? ≠ some ' '

end Verif.Source
