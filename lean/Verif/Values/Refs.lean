import Verif.Values.Props
/-!
# C80: the objects a structure refers to

A `StructureValue` keeps the words of a structure (r_exec/binding_map.cpp:214-219), not the references of the
object it was met in; `valuate` adds none to the object written into (binding_map.h:194-197).
-/
namespace Verif.Values
open Verif.Atom Verif.Words

/-- What is found at a place of a structure: an atom, a structure with its header, or an object (none if there
is no such reference). -/
inductive Thing
  | word (w : Word)
  | sub (h : Word)
  | obj (o : Option Nat)
  deriving DecidableEq, Repr

/-- The place reached from the structure at `i` by the member numbers of the path, in an object with references
`rs`. -/
def see (c : Code) (rs : List Nat) : Nat → List Nat → Option Thing
  | i, [] => c[i]?.map .sub
  | i, k :: ks =>
    match c[i]? with
    | none => none
    | some h =>
      if k = 0 ∨ count h < k then none
      else
        match c[i + k]? with
        | none => none
        | some w =>
          if raw h then (if ks = [] then some (.word w) else none)
          else if getDescriptor w = 0x84 then see c rs (asIndex w).toNat ks
          else if ks = [] then some (if getDescriptor w = 0x85 then .obj rs[(asIndex w).toNat]? else .word w)
          else none

/-- There is no reference in the structure. -/
def NoRefs (c : Code) (i : Nat) : Prop := ∀ p o, see c [] i p ≠ some (.obj o)

/-- Texts, times and durations hold no references. -/
theorem norefs_raw {c : Code} {i : Nat} {h : Word} (hh : c[i]? = some h) (hr : raw h = true) : NoRefs c i := by
  intro p o
  match p with
  | [] => simp [see, hh]
  | k :: ks =>
    simp only [see, hh, hr, if_true]
    by_cases hk : k = 0 ∨ count h < k
    · rw [if_pos hk]; simp
    · rw [if_neg hk]
      cases c[i + k]? with
      | none => simp
      | some w => by_cases hn : ks = [] <;> simp [hn]

theorem see_none {c : Code} {rs : List Nat} {i : Nat} (h : c[i]? = none) (p : List Nat) : see c rs i p = none := by
  cases p <;> simp [see, h]

theorem look_none {c : Code} {i : Nat} (h : look c i [] = none) (rs : List Nat) (p : List Nat) :
    see c rs i p = none := see_none (by simpa [look] using h) p

/-- Structures with the same words have the same objects, with the same references. -/
theorem see_congr {c d : Code} (rs : List Nat) : ∀ p i j, (∀ q, look c i q = look d j q) →
    see c rs i p = see d rs j p := by
  intro p
  induction p with
  | nil =>
    intro i j h
    have h0 := h []
    simp only [look] at h0
    simp only [see]
    cases hc : c[i]? <;> cases hd : d[j]? <;> simp_all
  | cons k ks ih =>
    intro i j h
    have h0 := h []
    simp only [look] at h0
    cases hc : c[i]? with
    | none =>
      have hd : d[j]? = none := by rw [hc] at h0; simpa using h0.symm
      rw [see_none hc, see_none hd]
    | some w =>
      have hd : d[j]? = some w := by
        rw [hc] at h0
        cases hd : d[j]? with
        | none => rw [hd] at h0; simp at h0
        | some w' => rw [hd] at h0; simp at h0; rw [h0]
      simp only [see, hc, hd]
      by_cases hk : k = 0 ∨ count w < k
      · rw [if_pos hk, if_pos hk]
      · rw [if_neg hk, if_neg hk]
        have hq : ∀ q, look c i (k :: q) = look d j (k :: q) := fun q => h (k :: q)
        simp only [look, hc, hd, if_neg hk] at hq
        by_cases hr : raw w = true
        · simp only [hr, if_true] at hq ⊢
          have h1 := hq []
          cases ha : c[i + k]? <;> cases hb : d[j + k]? <;> simp_all
        · simp only [hr, Bool.false_eq_true, if_false] at hq ⊢
          cases ha : c[i + k]? with
          | none =>
            cases hb : d[j + k]? with
            | none => rfl
            | some b =>
              simp only [ha, hb] at hq ⊢
              by_cases hp : getDescriptor b = 0x84
              · simp only [hp, if_true] at hq ⊢
                exact (look_none (hq []).symm rs ks).symm
              · have := hq []
                rw [if_neg hp] at this
                simp at this
          | some a =>
            cases hb : d[j + k]? with
            | none =>
              simp only [ha, hb] at hq ⊢
              by_cases hp : getDescriptor a = 0x84
              · simp only [hp, if_true] at hq ⊢
                exact look_none (hq []) rs ks
              · have := hq []
                rw [if_neg hp] at this
                simp at this
            | some b =>
              simp only [ha, hb] at hq ⊢
              have hs : ∀ {e : Code} {x : Nat} {w : Word}, look e x [] ≠ some (.word w) := by
                intro e x w
                simp only [look]
                cases e[x]? <;> simp
              by_cases hp : getDescriptor a = 0x84
              · by_cases hp' : getDescriptor b = 0x84
                · simp only [hp, hp', if_true] at hq ⊢
                  exact ih _ _ hq
                · have := hq []
                  rw [if_pos hp, if_neg hp'] at this
                  exact absurd this (by simpa using hs)
              · by_cases hp' : getDescriptor b = 0x84
                · have := hq []
                  rw [if_neg hp, if_pos hp'] at this
                  exact absurd this.symm (by simpa using hs)
                · have := hq []
                  rw [if_neg hp, if_neg hp'] at this
                  simp only [if_true, Option.some.injEq, Seen.word.injEq] at this
                  rw [if_neg hp, if_neg hp', this]

/-- Without references, it does not matter which references there are. -/
theorem see_norefs {c : Code} (rs : List Nat) : ∀ p i, NoRefs c i → see c rs i p = see c [] i p := by
  intro p
  induction p with
  | nil => intro i _; rfl
  | cons k ks ih =>
    intro i h
    have hk' : ∀ ks o, see c [] i (k :: ks) ≠ some (.obj o) := fun ks o => h (k :: ks) o
    simp only [see] at hk' ⊢
    cases hc : c[i]? with
    | none => rfl
    | some w =>
      simp only [hc] at hk' ⊢
      by_cases hk : k = 0 ∨ count w < k
      · rw [if_pos hk, if_pos hk]
      · simp only [if_neg hk] at hk' ⊢
        cases ha : c[i + k]? with
        | none => rfl
        | some a =>
          simp only [ha] at hk' ⊢
          by_cases hr : raw w = true
          · simp only [hr, if_true]
          · simp only [hr, Bool.false_eq_true, if_false] at hk' ⊢
            by_cases hp : getDescriptor a = 0x84
            · simp only [hp, if_true] at hk' ⊢
              exact ih _ hk'
            · simp only [if_neg hp] at hk' ⊢
              by_cases h5 : getDescriptor a = 0x85
              · have := hk' [] none
                rw [if_pos rfl, if_pos h5] at this
                exact absurd rfl this
              · simp only [h5, if_false]

/-- The structure at `j` of an object with code `src` and references `rs`, bound to a variable and written into
an object with code `d` and references `rs'`, has there the same members, the same objects included. -/
def Carried (src : Code) (rs : List Nat) (j : Nat) (d : Code) (rs' : List Nat) (write ext : Nat) : Prop :=
  ∃ f v d' e', structureValue f src j = some v ∧
    (v.length ≤ 4096 → ∃ g, valuateStruct g v d write ext = some (d', e') ∧
      (e' ≤ 4096 → ∀ p, see d' rs' ext p = see src rs j p))

/-- C80: for every structure whose words are copied (C76). -/
def C80_full : Prop :=
  ∀ (src : Code) (rs : List Nat) (j : Nat) (d : Code) (rs' : List Nat) (write ext : Nat),
    Whole src j → Plain src j → write < ext → Carried src rs j d rs' write ext

/-- C80 for structures without references. -/
theorem C80_references_partial (src : Code) (rs : List Nat) (j : Nat) (d : Code) (rs' : List Nat)
    (write ext : Nat) (hw : Whole src j) (hp : Plain src j) (hwe : write < ext) (hn : NoRefs src j) :
    Carried src rs j d rs' write ext := by
  obtain ⟨f, v, d', e', h1, h2⟩ := C76_carried_partial src j hw hp d write ext hwe
  refine ⟨f, v, d', e', h1, fun hv => ?_⟩
  obtain ⟨g, h3, h4⟩ := h2 hv
  refine ⟨g, h3, fun he p => ?_⟩
  rw [see_congr rs' p ext j (h4 he).2.2, see_norefs rs' p j hn, see_norefs rs p j hn]

/-- `(mk.val h holding [c])`: the set at 5 has the third reference. -/
def holds : Code := [object 30 4, rPointer 0, rPointer 1, iPointer 5, float 0, set 1, rPointer 2]

theorem holds_set : Whole holds 5 ∧ Plain holds 5 := by
  have hm : ∀ k w, 1 ≤ k → k ≤ count (set 1) → holds[5 + k]? = some w → getDescriptor w = 0x84 → False := by
    intro k w h1 h2 hw
    have : count (set 1) = 1 := by decide
    obtain rfl : k = 1 := by omega
    obtain rfl : rPointer 2 = w := by simpa [holds] using hw
    decide
  exact ⟨Whole.mk (h := set 1) (by decide) (by decide) (by decide) (fun _ k w h1 h2 hw hd => (hm k w h1 h2 hw hd).elim),
    Plain.mk (h := set 1) (by decide) (fun h => absurd h (by decide))
      (fun _ k w h1 h2 hw hd => (hm k w h1 h2 hw hd).elim)⟩

/-- The value of `(mk.val h holding [c])`, where `h`, `holding` and `c` are the objects 10, 11 and 12, written
into an object with the references 20, 21, 22, is the set of 22; into one with a single reference, it refers to
nothing. -/
theorem C80_references_violated : ¬ C80_full ∧
    see holds [10, 11, 12] 5 [1] = some (.obj (some 12)) ∧
    (structureValue 1 holds 5).bind (fun v => (valuateStruct 1 v [object 31 1, nil] 1 2).map fun r =>
      (see r.1 [20, 21, 22] 2 [1], see r.1 [20] 2 [1])) = some (some (.obj (some 22)), some (.obj none)) := by
  refine ⟨fun H => ?_, by decide, by decide⟩
  obtain ⟨f, v, d', e', h1, h2⟩ := H holds [10, 11, 12] 5 [object 31 1, nil] [20] 1 2 holds_set.1 holds_set.2 (by decide)
  have hv : v = [set 1, rPointer 2] := by
    cases f with
    | zero => simp [structureValue, copyStructure] at h1
    | succ f =>
      have : structureValue (f + 1) holds 5 = some [set 1, rPointer 2] := rfl
      rw [this] at h1
      exact (Option.some.inj h1).symm
  subst hv
  obtain ⟨g, h3, h4⟩ := h2 (by decide)
  have hd : (d', e') = ([object 31 1, iPointer 2, set 1, rPointer 2], 4) := by
    cases g with
    | zero => simp [valuateStruct, copyStructure] at h3
    | succ g =>
      have : valuateStruct (g + 1) [set 1, rPointer 2] [object 31 1, nil] 1 2 =
        some ([object 31 1, iPointer 2, set 1, rPointer 2], 4) := rfl
      rw [this] at h3
      exact (Option.some.inj h3).symm
  obtain ⟨rfl, rfl⟩ := Prod.mk.inj hd
  exact absurd (h4 (by decide) [1]) (by decide)

/-- The hypotheses of `C80_references_partial` hold for the set in the sample of C76; a set with a reference is
not among those. -/
theorem C80_nonvacuous : Whole sample 5 ∧ Plain sample 5 ∧ NoRefs sample 5 ∧ ¬ NoRefs holds 5 ∧
    see sample [7] 5 [1] = some (.word (float 2)) := by
  refine ⟨sample_set.1, sample_set.2, fun p o => ?_, fun h => h [1] none (by decide), by decide⟩
  match p with
  | [] => simp [see, sample]
  | k :: ks =>
    have hc : count (set 2) = 2 := by decide
    have hr : raw (set 2) = false := by decide
    have h5 : sample[5]? = some (set 2) := rfl
    simp only [see, h5, hc, hr]
    by_cases hk : k = 0 ∨ 2 < k
    · rw [if_pos hk]; simp
    · rw [if_neg hk]
      have d1 : getDescriptor (float 2) ≠ 0x84 ∧ getDescriptor (float 2) ≠ 0x85 := by decide
      have d2 : getDescriptor nil ≠ 0x84 ∧ getDescriptor nil ≠ 0x85 := by decide
      rcases (by omega : k = 1 ∨ k = 2) with rfl | rfl
      · have h6 : sample[5 + 1]? = some (float 2) := rfl
        rw [h6]
        simp only
        rw [if_neg (by decide), if_neg d1.1, if_neg d1.2]
        by_cases hn : ks = [] <;> simp [hn]
      · have h6 : sample[5 + 2]? = some nil := rfl
        rw [h6]
        simp only
        rw [if_neg (by decide), if_neg d2.1, if_neg d2.2]
        by_cases hn : ks = [] <;> simp [hn]

end Verif.Values
