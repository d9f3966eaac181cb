import Verif.HasRef.Model
import Mathlib.Data.List.Basic
import Mathlib.Order.Basic
/-!
# C57: references in guards
-/
namespace Verif.HasRef
set_option linter.dupNamespace false
open Verif.Atom

/-- The code words of which an expression is made. Pointers (`I_PTR`, and `ASSIGN_PTR` if `asg`) lead to
code; the members of a structure are code. Of a chain `C_PTR` only the first word is code: the others are
positions within the object it designates (r_exec/context.cpp:200-223). The words of times and strings are
data. -/
inductive Edge (asg : Bool) (code : List Word) : Nat → Nat → Prop
  | ptr {i w} : code[i]? = some w → getDescriptor w = 0x84 → Edge asg code i (asIndex w).toNat
  | assign {i w} : asg = true → code[i]? = some w → getDescriptor w = 0x8D →
      Edge asg code i (asIndex w).toNat
  | chain {i w} : code[i]? = some w → getDescriptor w = 0xC0 → 1 ≤ (getAtomCount w).toNat →
      Edge asg code i (i + 1)
  | member {i w j} : code[i]? = some w →
      getDescriptor w ∈ ([0xC1, 0xC2, 0xC3, 0xC4, 0xC5, 0xC8] : List (BitVec 8)) →
      1 ≤ j → j ≤ (getAtomCount w).toNat → Edge asg code i (i + j)

/-- The code words of the expression at `i`. -/
inductive Reach (code : List Word) : Nat → Nat → Prop
  | refl {i} : Reach code i i
  | step {i k l} : Edge true code i k → Reach code k l → Reach code i l

/-- A code word of the expression at `i` designates a reference. -/
inductive HasRef (asg : Bool) (code : List Word) : Nat → Prop
  | here {i w} : code[i]? = some w → getDescriptor w = 0x85 → HasRef asg code i
  | step {i k} : Edge asg code i k → HasRef asg code k → HasRef asg code i

/-- The expression at `i` is well-formed: its words, the data words of times and the positions of chains
included, are in the code, and no word contains itself. -/
inductive Fine (code : List Word) : Nat → Prop
  | mk {i w} : code[i]? = some w →
      ((getDescriptor w = 0xC0 ∨ getDescriptor w = 0xC7 ∨ getDescriptor w = 0xD0) →
        i + (getAtomCount w).toNat < code.length) →
      (∀ k, Edge true code i k → Fine code k) → Fine code i

/-- C57 in full: for all code the scan ends, and says yes exactly if there is a reference. -/
def C57_full : Prop :=
  ∀ (code : List Word) (i : Nat), code.length ≤ 65536 → Fine code i →
    ∃ f0, ∀ f, f0 ≤ f → ∃ b, scan code f i = some b ∧ (b = true ↔ HasRef true code i)

/-- A word that the scan passes over. -/
def Inert (w : Word) : Prop :=
  getDescriptor w ≠ 0x85 ∧ getDescriptor w ≠ 0x84 ∧ scanned (getDescriptor w) = false

/-- No data word of a time and no position of a chain in the expression at `i` looks like code that would
be scanned. -/
def Clean (code : List Word) (i : Nat) : Prop :=
  ∀ k, Reach code i k → ∀ (w : Word) (j : Nat) (v : Word), code[k]? = some w →
    j ≤ (getAtomCount w).toNat → code[k + j]? = some v →
    ((getDescriptor w = 0xC7 ∨ getDescriptor w = 0xD0) ∧ 1 ≤ j ∨ getDescriptor w = 0xC0 ∧ 2 ≤ j) → Inert v

theorem foldlM_any {α : Type} (g : α → Option Bool) (b : α → Bool) :
    ∀ (l : List α) (a : Bool), (∀ x ∈ l, g x = some (b x)) →
      l.foldlM (fun found j => if found then some true else g j) a = some (a || l.any b)
  | [], a, _ => by simp
  | x :: l, a, h => by
    rw [List.foldlM_cons]
    cases a with
    | true =>
      simp only [if_true, Option.bind_eq_bind, Option.bind_some]
      rw [foldlM_any g b l true (fun y hy => h y (List.mem_cons_of_mem _ hy))]
      simp
    | false =>
      simp only [Bool.false_eq_true, if_false, h x (by simp), Option.bind_eq_bind, Option.bind_some]
      rw [foldlM_any g b l (b x) (fun y hy => h y (List.mem_cons_of_mem _ hy))]
      simp

theorem uniform {P : Nat → Nat → Prop} : ∀ n, (∀ j, j < n → ∃ f0, ∀ f, f0 ≤ f → P j f) →
    ∃ F, ∀ j, j < n → ∀ f, F ≤ f → P j f
  | 0, _ => ⟨0, fun j hj => by omega⟩
  | n + 1, h => by
    obtain ⟨F, hF⟩ := uniform n (fun j hj => h j (by omega))
    obtain ⟨f0, h0⟩ := h n (by omega)
    refine ⟨max F f0, fun j hj f hf => ?_⟩
    by_cases e : j = n
    · subst e; exact h0 f (by omega)
    · exact hF j (by omega) f (by omega)

theorem scan_inert {code : List Word} {i : Nat} {w : Word} (hw : code[i]? = some w) (h : Inert w) (f : Nat) :
    scan code (f + 1) i = some false := by
  rw [scan, hw]
  dsimp only
  rw [if_neg h.1, if_neg h.2.1, h.2.2]
  rfl

/-- The scan ends; it says yes exactly if there is a reference outside assignments. -/
theorem scan_spec {code : List Word} (hlen : code.length ≤ 65536) {i : Nat} (h : Fine code i)
    (hraw : Clean code i) :
    ∃ f0, ∀ f, f0 ≤ f → ∃ b, scan code f i = some b ∧ (b = true ↔ HasRef false code i) := by
  induction h with
  | @mk i w hw hroom hk ih0 =>
    have ih := fun k (he : Edge true code i k) =>
      ih0 k he (fun l hl => hraw l (.step he hl))
    by_cases h85 : getDescriptor w = 0x85
    · refine ⟨1, fun f hf => ⟨true, ?_, by simp; exact .here hw h85⟩⟩
      obtain ⟨f, rfl⟩ : ∃ g, f = g + 1 := ⟨f - 1, by omega⟩
      rw [scan, hw]; simp [h85]
    have nohere : ∀ w', code[i]? = some w' → getDescriptor w' ≠ 0x85 := by
      intro w' hw'; rw [hw] at hw'; obtain rfl := Option.some.inj hw'; exact h85
    by_cases h84 : getDescriptor w = 0x84
    · obtain ⟨f0, h0⟩ := ih _ (.ptr hw h84)
      refine ⟨f0 + 1, fun f hf => ?_⟩
      obtain ⟨f, rfl⟩ : ∃ g, f = g + 1 := ⟨f - 1, by omega⟩
      obtain ⟨b, hb, hr⟩ := h0 f (by omega)
      refine ⟨b, ?_, ?_⟩
      · rw [scan, hw]; simp only [h85, h84, if_true, if_false]; exact hb
      · rw [hr]
        constructor
        · intro h; exact .step (.ptr hw h84) h
        · intro h
          cases h with
          | here hw' h' => exact absurd h' (nohere _ hw')
          | step he h' =>
            cases he with
            | ptr hw' _ => rw [hw] at hw'; obtain rfl := Option.some.inj hw'; exact h'
            | assign ha => exact absurd ha (by simp)
            | chain hw' hd => rw [hw] at hw'; obtain rfl := Option.some.inj hw'; rw [h84] at hd; exact absurd hd (by decide)
            | member hw' hd => rw [hw] at hw'; obtain rfl := Option.some.inj hw'; rw [h84] at hd; exact absurd hd (by decide)
    have noptr : ∀ w', code[i]? = some w' → getDescriptor w' ≠ 0x84 := by
      intro w' hw'; rw [hw] at hw'; obtain rfl := Option.some.inj hw'; exact h84
    by_cases hs : scanned (getDescriptor w) = true
    · -- every member has an answer
      have hchild : ∀ j, j < (getAtomCount w).toNat → ∃ f0, ∀ f, f0 ≤ f →
          ∃ b, scan code f ((i + (j + 1)) % 65536) = some b ∧
            (b = true ↔ Edge false code i (i + (j + 1)) ∧ HasRef false code (i + (j + 1))) := by
        intro j hj
        have fin_edge : Edge true code i (i + (j + 1)) → Edge false code i (i + (j + 1)) →
            ∃ f0, ∀ f, f0 ≤ f → ∃ b, scan code f ((i + (j + 1)) % 65536) = some b ∧
              (b = true ↔ Edge false code i (i + (j + 1)) ∧ HasRef false code (i + (j + 1))) := by
          intro he he'
          obtain ⟨f0, h0⟩ := ih _ he
          have hin : i + (j + 1) < code.length := by
            cases hk _ he with
            | mk hw' _ _ => exact (List.getElem?_eq_some_iff.1 hw').1
          rw [Nat.mod_eq_of_lt (by omega)]
          refine ⟨f0, fun f hf => ?_⟩
          obtain ⟨b, hb, hr⟩ := h0 f hf
          exact ⟨b, hb, hr.trans ⟨fun h => ⟨he', h⟩, fun h => h.2⟩⟩
        by_cases hmem : getDescriptor w ∈ ([0xC1, 0xC2, 0xC3, 0xC4, 0xC5, 0xC8] : List (BitVec 8))
        · exact fin_edge (.member hw hmem (by omega) (by omega)) (.member hw hmem (by omega) (by omega))
        by_cases hc : getDescriptor w = 0xC0 ∧ j = 0
        · obtain ⟨hc, rfl⟩ := hc
          exact fin_edge (.chain hw hc (by omega)) (.chain hw hc (by omega))
        -- a data word
        have hcases : ((getDescriptor w = 0xC7 ∨ getDescriptor w = 0xD0) ∧ 1 ≤ j + 1 ∨
            getDescriptor w = 0xC0 ∧ 2 ≤ j + 1) := by
          simp only [List.mem_cons, List.not_mem_nil, or_false, not_or] at hmem
          simp only [scanned, Bool.or_eq_true, decide_eq_true_eq] at hs
          rcases hs with (((((((hs | hs) | hs) | hs) | hs) | hs) | hs) | hs) | hs
          · exact .inr ⟨hs, by have : ¬ j = 0 := fun e => hc ⟨hs, e⟩; omega⟩
          · exact absurd hs hmem.1
          · exact absurd hs hmem.2.2.1
          · exact absurd hs hmem.2.1
          · exact absurd hs hmem.2.2.2.1
          · exact absurd hs hmem.2.2.2.2.1
          · exact .inl ⟨.inl hs, by omega⟩
          · exact .inl ⟨.inr hs, by omega⟩
          · exact absurd hs hmem.2.2.2.2.2
        have hr := hroom (by rcases hcases with ⟨h | h, _⟩ | ⟨h, _⟩ <;> simp [h])
        have hin : i + (j + 1) < code.length := by omega
        have hv : code[i + (j + 1)]? = some code[i + (j + 1)] := List.getElem?_eq_getElem hin
        have hin' := hraw i .refl w (j + 1) _ hw (by omega) hv hcases
        refine ⟨1, fun f hf => ⟨false, ?_, ?_⟩⟩
        · obtain ⟨f, rfl⟩ : ∃ g, f = g + 1 := ⟨f - 1, by omega⟩
          rw [Nat.mod_eq_of_lt (by omega)]
          exact scan_inert hv hin' f
        · refine ⟨fun h => absurd h (by simp), fun h => ?_⟩
          have hdata : ∀ k, HasRef false code k → k ≠ i + (j + 1) := by
            intro k hk e
            subst e
            cases hk with
            | here hw' h' => rw [hv] at hw'; obtain rfl := Option.some.inj hw'; exact hin'.1 h'
            | step he _ =>
              cases he with
              | ptr hw' h' => rw [hv] at hw'; obtain rfl := Option.some.inj hw'; exact hin'.2.1 h'
              | assign ha => exact absurd ha (by simp)
              | chain hw' h' =>
                rw [hv] at hw'; obtain rfl := Option.some.inj hw'
                have := hin'.2.2; rw [h'] at this; exact absurd this (by decide)
              | member hw' h' =>
                rw [hv] at hw'; obtain rfl := Option.some.inj hw'
                have := hin'.2.2
                simp only [List.mem_cons, List.not_mem_nil, or_false] at h'
                rcases h' with h' | h' | h' | h' | h' | h' <;> rw [h'] at this <;> exact absurd this (by decide)
          exact absurd rfl (hdata _ h.2)
      obtain ⟨F, hF⟩ := uniform _ hchild
      refine ⟨F + 1, fun f hf => ?_⟩
      obtain ⟨f, rfl⟩ : ∃ g, f = g + 1 := ⟨f - 1, by omega⟩
      have hF' : ∀ j, j < (getAtomCount w).toNat → ∃ b, scan code f ((i + (j + 1)) % 65536) = some b ∧
          (b = true ↔ Edge false code i (i + (j + 1)) ∧ HasRef false code (i + (j + 1))) :=
        fun j hj => hF j hj f (by omega)
      have hb : ∀ j ∈ List.range (getAtomCount w).toNat,
          scan code f ((i + (j + 1)) % 65536) =
            some ((scan code f ((i + (j + 1)) % 65536)).getD false) := by
        intro j hj
        obtain ⟨b, hb, _⟩ := hF' j (List.mem_range.1 hj)
        rw [hb]; rfl
      refine ⟨(List.range (getAtomCount w).toNat).any
        (fun j => (scan code f ((i + (j + 1)) % 65536)).getD false), ?_, ?_⟩
      · rw [scan, hw]
        simp only [h85, h84, hs, if_true, if_false]
        rw [foldlM_any _ _ _ false hb, Bool.false_or]
      · rw [List.any_eq_true]
        constructor
        · rintro ⟨j, hj, hbj⟩
          obtain ⟨b, hb, hiff⟩ := hF' j (List.mem_range.1 hj)
          rw [hb] at hbj
          obtain ⟨he, hr⟩ := hiff.1 hbj
          exact .step he hr
        · intro h
          have key : ∀ j, 1 ≤ j → j ≤ (getAtomCount w).toNat → Edge false code i (i + j) →
              HasRef false code (i + j) → ∃ x ∈ List.range (getAtomCount w).toNat,
                (scan code f ((i + (x + 1)) % 65536)).getD false = true := by
            intro j h1 h2 he hr
            obtain ⟨j, rfl⟩ : ∃ g, j = g + 1 := ⟨j - 1, by omega⟩
            obtain ⟨b, hb, hiff⟩ := hF' j (by omega)
            refine ⟨j, List.mem_range.2 (by omega), ?_⟩
            rw [hb]
            exact hiff.2 ⟨he, hr⟩
          cases h with
          | here hw' h' => exact absurd h' (nohere _ hw')
          | step he hr =>
            cases he with
            | ptr hw' h' => exact absurd h' (noptr _ hw')
            | assign ha => exact absurd ha (by simp)
            | chain hw' hd hc =>
              have := hw'
              rw [hw] at this; obtain rfl := Option.some.inj this
              exact key 1 (by omega) hc (.chain hw' hd hc) hr
            | member hw' hd h1 h2 =>
              have := hw'
              rw [hw] at this; obtain rfl := Option.some.inj this
              exact key _ h1 h2 (.member hw' hd h1 h2) hr
    · refine ⟨1, fun f hf => ⟨false, ?_, ?_⟩⟩
      · obtain ⟨f, rfl⟩ : ∃ g, f = g + 1 := ⟨f - 1, by omega⟩
        exact scan_inert hw ⟨h85, h84, by simpa using hs⟩ f
      · refine ⟨fun h => absurd h (by simp), fun h => ?_⟩
        cases h with
        | here hw' h' => exact absurd h' (nohere _ hw')
        | step he _ =>
          cases he with
          | ptr hw' h' => exact absurd h' (noptr _ hw')
          | assign ha => exact absurd ha (by simp)
          | chain hw' hd =>
            rw [hw] at hw'; obtain rfl := Option.some.inj hw'
            rw [hd] at hs; exact absurd (by decide) hs
          | member hw' hd =>
            rw [hw] at hw'; obtain rfl := Option.some.inj hw'
            simp only [List.mem_cons, List.not_mem_nil, or_false] at hd
            rcases hd with hd | hd | hd | hd | hd | hd <;> rw [hd] at hs <;> exact absurd (by decide) hs

theorem Edge.weaken {code : List Word} {i k : Nat} (h : Edge false code i k) : Edge true code i k := by
  cases h with
  | ptr a b => exact .ptr a b
  | assign a b c => exact .assign rfl b c
  | chain a b c => exact .chain a b c
  | member a b c d => exact .member a b c d

theorem HasRef.weaken {code : List Word} {i : Nat} (h : HasRef false code i) : HasRef true code i := by
  induction h with
  | here a b => exact .here a b
  | step a _ ih => exact .step a.weaken ih

/-- A reference is outside assignments, or the expression of an assignment holds it. -/
theorem HasRef.cases_assign {code : List Word} {i : Nat} (h : HasRef true code i) :
    HasRef false code i ∨
      ∃ (k : Nat) (w : Word), code[k]? = some w ∧ getDescriptor w = 0x8D ∧ HasRef true code (asIndex w).toNat := by
  induction h with
  | here a b => exact .inl (.here a b)
  | step e hr ih =>
    rcases ih with ih | ih
    · cases e with
      | ptr a b => exact .inl (.step (.ptr a b) ih)
      | assign _ b c => exact .inr ⟨_, _, b, c, hr⟩
      | chain a b c => exact .inl (.step (.chain a b c) ih)
      | member a b c d => exact .inl (.step (.member a b c d) ih)
    · exact .inr ih

/-- C57, the part that holds: if the words of times and the positions of chains do not look like code, the
scan ends; it says yes exactly if there is a reference outside the expressions of assignments; so a yes is
always right, and a no is right if no assignment holds a reference.
Missing: assignments, whose expressions are not scanned; times and chains, whose data are. -/
theorem C57_scan_partial (code : List Word) (i : Nat) (hlen : code.length ≤ 65536) (hfine : Fine code i)
    (hraw : Clean code i) :
    ∃ f0, ∀ f, f0 ≤ f → ∃ b, scan code f i = some b ∧ (b = true ↔ HasRef false code i) ∧
      (b = true → HasRef true code i) ∧
      ((∀ (k : Nat) (w : Word), code[k]? = some w → getDescriptor w = 0x8D →
        ¬ HasRef true code (asIndex w).toNat) → (b = true ↔ HasRef true code i)) := by
  obtain ⟨f0, h0⟩ := scan_spec hlen hfine hraw
  refine ⟨f0, fun f hf => ?_⟩
  obtain ⟨b, hb, hr⟩ := h0 f hf
  refine ⟨b, hb, hr, fun h => (hr.1 h).weaken, fun hna => ⟨fun h => (hr.1 h).weaken, fun h => ?_⟩⟩
  rcases h.cases_assign with h | ⟨k, w, h1, h2, h3⟩
  · exact hr.2 h
  · exact absurd h3 (hna k w h1 h2)

/-! ### Examples -/

/-- Where the edges of word `i` lead. -/
def succs (code : List Word) (i : Nat) : List Nat :=
  match code[i]? with
  | none => []
  | some w =>
    if getDescriptor w = 0x84 ∨ getDescriptor w = 0x8D then [(asIndex w).toNat]
    else if getDescriptor w = 0xC0 then (if 1 ≤ (getAtomCount w).toNat then [i + 1] else [])
    else if getDescriptor w ∈ ([0xC1, 0xC2, 0xC3, 0xC4, 0xC5, 0xC8] : List (BitVec 8)) then
      (List.range (getAtomCount w).toNat).map (fun j => i + (j + 1))
    else []

theorem edge_succs {asg : Bool} {code : List Word} {i k : Nat} (h : Edge asg code i k) : k ∈ succs code i := by
  cases h with
  | ptr hw hd => unfold succs; rw [hw]; simp [hd]
  | assign _ hw hd => unfold succs; rw [hw]; simp [hd]
  | chain hw hd hc =>
    unfold succs; rw [hw]; dsimp only
    rw [if_neg (by rw [hd]; decide), if_pos hd, if_pos hc]; simp
  | @member w j hw hd h1 h2 =>
    unfold succs; rw [hw]; dsimp only
    have h3 : ¬ (getDescriptor w = 0x84 ∨ getDescriptor w = 0x8D) := by
      simp only [List.mem_cons, List.not_mem_nil, or_false] at hd
      rcases hd with hd | hd | hd | hd | hd | hd <;> rw [hd] <;> decide
    have h4 : ¬ getDescriptor w = 0xC0 := by
      simp only [List.mem_cons, List.not_mem_nil, or_false] at hd
      rcases hd with hd | hd | hd | hd | hd | hd <;> rw [hd] <;> decide
    rw [if_neg h3, if_neg h4, if_pos hd]
    exact List.mem_map.2 ⟨j - 1, List.mem_range.2 (by omega), by omega⟩

/-- Room for the data of word `i`. -/
def roomAt (code : List Word) (i : Nat) : Bool :=
  match code[i]? with
  | none => true
  | some w =>
    !(getDescriptor w = 0xC0 || getDescriptor w = 0xC7 || getDescriptor w = 0xD0) ||
      decide (i + (getAtomCount w).toNat < code.length)

theorem fine_forward {code : List Word} (S : List Nat)
    (h : ∀ i ∈ S, i < code.length ∧ roomAt code i = true ∧ ∀ k ∈ succs code i, i < k ∧ k ∈ S) :
    ∀ i ∈ S, Fine code i := by
  have : ∀ n i, i ∈ S → code.length - i ≤ n → Fine code i := by
    intro n
    induction n with
    | zero => intro i hi hn; have := (h i hi).1; omega
    | succ n ih =>
      intro i hi hn
      obtain ⟨h1, h2, h3⟩ := h i hi
      refine .mk (List.getElem?_eq_getElem h1) (fun hd => ?_) (fun k hk => ?_)
      · unfold roomAt at h2
        rw [List.getElem?_eq_getElem h1] at h2
        dsimp only at h2
        simp only [Bool.or_eq_true, Bool.not_eq_true', decide_eq_true_eq, Bool.or_eq_false_iff,
          decide_eq_false_iff_not] at h2
        rcases h2 with h2 | h2
        · exact absurd hd (by simp only [not_or]; exact ⟨h2.1.1, h2.1.2, h2.2⟩)
        · exact h2
      · obtain ⟨h4, h5⟩ := h3 k (edge_succs hk)
        exact ih k h5 (by omega)
  exact fun i hi => this _ i hi (Nat.le_refl _)

def refAt (code : List Word) (i : Nat) : Bool := (code[i]?).any fun w => getDescriptor w = 0x85

/-- Word `i` is a time or chain. -/
def rawAt (code : List Word) (i : Nat) : Bool :=
  (code[i]?).any fun w => getDescriptor w = 0xC7 || getDescriptor w = 0xD0 || getDescriptor w = 0xC0

theorem noref_closed {asg : Bool} {code : List Word} (S : List Nat)
    (h : ∀ i ∈ S, refAt code i = false ∧ ∀ k ∈ succs code i, k ∈ S) :
    ∀ i ∈ S, ¬ HasRef asg code i := by
  intro i hi hr
  induction hr with
  | here hw hd =>
    have := (h _ hi).1
    unfold refAt at this
    rw [hw] at this
    simp [hd] at this
  | step he _ ih => exact ih ((h _ hi).2 _ (edge_succs he))

/-- A duration, or time, whose low word starts with 0x85. -/
def wTime : List Word := [0xC7000000, 0, 0x85000000]
/-- A time whose low word is a pointer to it. -/
def wLoop : List Word := [0xC7000000, 0, 0x84000000]
/-- An assignment of an expression with a reference. -/
def wAssign : List Word := [0x8D000001, 0xC5000001, 0x85000000]
/-- A model: at 1 to 4 its arguments, its two sides (a set with a reference), its guards; the forward
guards are a chain to the second member of a variable. -/
def wChain : List Word :=
  [0xCE000004, 0x84000005, 0x84000006, 0x84000008, 0x84000005, 0xC1000000, 0xC1000001, 0x85000000,
   0xC1000001, 0x8400000A, 0xC0000002, 0x8E000000, 0x84000002]

theorem loop_none : ∀ f, scan wLoop f 0 = none := by
  intro f
  induction f using Nat.strongRecOn with
  | ind f ih =>
    match f with
    | 0 => rfl
    | 1 => rfl
    | f + 2 =>
      show (List.range 2).foldlM (fun found j =>
          if found = true then some true else scan wLoop (f + 1) ((0 + (j + 1)) % 65536)) false = none
      have h1 : scan wLoop (f + 1) 1 = some false := rfl
      have h2 : scan wLoop (f + 1) 2 = none := by
        show scan wLoop f 0 = none
        exact ih f (by omega)
      simp [List.range, List.range.loop, h1, h2]

set_option maxRecDepth 8000 in
/-- The scan says yes to a time without reference, does not end on another, says no to an assignment with a
reference, and says yes to a chain that holds none. -/
theorem C57_scan_violated :
    ¬ C57_full ∧
    (Fine wTime 0 ∧ ¬ HasRef true wTime 0 ∧ scan wTime 2 0 = some true) ∧
    (Fine wLoop 0 ∧ ∀ f, scan wLoop f 0 = none) ∧
    (Fine wAssign 0 ∧ HasRef true wAssign 0 ∧ ∀ f, scan wAssign (f + 1) 0 = some false) ∧
    (Fine wChain 3 ∧ ¬ HasRef true wChain 3 ∧ scan wChain 10 3 = some true) := by
  have hL : Fine wLoop 0 := fine_forward [0] (by decide) 0 (by decide)
  refine ⟨fun hC => ?_, ⟨fine_forward [0] (by decide) 0 (by decide), noref_closed [0] (by decide) 0 (by decide),
    by decide⟩, ⟨hL, loop_none⟩, ⟨fine_forward [0, 1, 2] (by decide) 0 (by decide), ?_, fun f => rfl⟩,
    ⟨fine_forward [3, 8, 9, 10, 11] (by decide) 3 (by decide),
      noref_closed [3, 8, 9, 10, 11] (by decide) 3 (by decide), by decide⟩⟩
  · obtain ⟨f0, h⟩ := hC wLoop 0 (by decide) hL
    obtain ⟨b, hb, _⟩ := h f0 (Nat.le_refl _)
    rw [loop_none f0] at hb
    exact absurd hb (by simp)
  · exact .step (.assign (w := 0x8D000001) rfl rfl (by decide))
      (.step (.member (j := 1) (w := 0xC5000001) rfl (by decide) (by decide) (by decide))
        (.here (w := 0x85000000) rfl (by decide)))

/-- Guards with a time, an operator and a reference. -/
def wGuards (x : Word) : List Word :=
  [0x84000001, 0xC1000002, 0x84000004, 0x84000007, 0xC7000000, 0x00050000, 0x12345678, 0xC5000001, x]

theorem reach_closed {code : List Word} (S : List Nat) (h : ∀ i ∈ S, ∀ k ∈ succs code i, k ∈ S) {i k : Nat}
    (hr : Reach code i k) : i ∈ S → k ∈ S := by
  induction hr with
  | refl => exact id
  | step he _ ih => exact fun hi => ih (h _ hi _ (edge_succs he))

set_option maxRecDepth 8000 in
/-- The hypotheses of the partial theorem hold of guards with a time; the answer depends on the operand. -/
theorem C57_nonvacuous :
    (∀ x : Word, x = 0x85000000 ∨ x = 0x3F000000 → Fine (wGuards x) 0 ∧ Clean (wGuards x) 0) ∧
    (∃ f, scan (wGuards 0x85000000) f 0 = some true) ∧
    (∃ f, scan (wGuards 0x3F000000) f 0 = some false) := by
  refine ⟨fun x hx => ⟨?_, ?_⟩, ⟨5, by decide⟩, ⟨5, by decide⟩⟩
  · rcases hx with rfl | rfl
    · exact fine_forward [0, 1, 2, 3, 4, 7, 8] (by decide) 0 (by decide)
    · exact fine_forward [0, 1, 2, 3, 4, 7, 8] (by decide) 0 (by decide)
  · have key : ∀ k ∈ [0, 1, 2, 3, 4, 7, 8], rawAt (wGuards x) k = true → k = 4 := by
      rcases hx with rfl | rfl <;> decide
    intro k hk w j v hw hj hv hcase
    have hS : k ∈ [0, 1, 2, 3, 4, 7, 8] := by
      refine reach_closed [0, 1, 2, 3, 4, 7, 8] ?_ hk (by decide)
      rcases hx with rfl | rfl <;> decide
    obtain rfl := key k hS (by
      unfold rawAt
      rw [hw]
      rcases hcase with ⟨h | h, _⟩ | ⟨h, _⟩ <;> simp [h])
    obtain rfl : w = 0xC7000000 := (Option.some.inj hw).symm
    have h1 : 1 ≤ j := by rcases hcase with ⟨_, h⟩ | ⟨_, h⟩ <;> omega
    have h2 : j ≤ 2 := hj
    have h3 : j = 1 ∨ j = 2 := by omega
    rcases h3 with rfl | rfl
    · have : v = 0x00050000 := (Option.some.inj hv).symm
      subst this
      unfold Inert; decide
    · have : v = 0x12345678 := (Option.some.inj hv).symm
      subst this
      unfold Inert; decide

end Verif.HasRef
