import Verif.Overlay.Model
import Mathlib.Tactic.ByContra
/-!
# Property C39
-/
namespace Verif.Overlay
open Verif.Atom

/-- The property: a rollback after a commit and any operations but a commit gives the code and the
values of the commit. -/
def C39_full : Prop :=
  ∀ (orig : List Word) (s0 s1 s2 s3 : St) (mid : List Op), s0.code.length = orig.length →
    (∀ op ∈ mid, ∀ k, op ≠ .commit ∧ op ≠ .unpatch k) →
    (∀ op ∈ mid, ∀ i w, op = .write i w → s0.values.length ≤ i) → s0.values.length < 65536 →
    s1 = commit s0 → run orig s1 mid = some s2 → rollback orig s2 = some s3 →
    s3.code = s0.code ∧ s3.values = s0.values

/-! ## Restoring -/

theorem restore_length (orig code : List Word) (is : List Nat) : (restore orig code is).length = code.length := by
  induction is generalizing code with
  | nil => rfl
  | cons i is ih =>
    simp only [restore]
    rw [ih]
    split <;> simp

theorem restore_get (orig code : List Word) (is : List Nat) (hl : code.length = orig.length) (j : Nat) :
    (restore orig code is)[j]? = if j ∈ is then orig[j]? else code[j]? := by
  induction is generalizing code with
  | nil => simp [restore]
  | cons i is ih =>
    simp only [restore]
    cases ho : orig[i]? with
    | none =>
      simp only
      rw [ih code hl]
      by_cases h1 : j ∈ is
      · rw [if_pos h1, if_pos (List.mem_cons_of_mem _ h1)]
      · rw [if_neg h1]
        by_cases h2 : j = i
        · subst h2
          rw [if_pos (by simp), ho]
          rw [List.getElem?_eq_none_iff] at ho ⊢; omega
        · rw [if_neg (by simp [h1, h2])]
    | some w =>
      simp only
      rw [ih _ (by simpa using hl)]
      by_cases h1 : j ∈ is
      · rw [if_pos h1, if_pos (List.mem_cons_of_mem _ h1)]
      · rw [if_neg h1]
        by_cases h2 : j = i
        · subst h2
          have hj : j < code.length := by
            by_contra hc
            rw [List.getElem?_eq_none (by omega)] at ho; cases ho
          rw [if_pos (by simp), List.getElem?_set_self hj, ho]
        · rw [if_neg (by simp [h1, h2]), List.getElem?_set_ne (Ne.symm h2)]

theorem resize_length {α : Type} (l : List α) (n : Nat) (d : α) : (resize l n d).length = n := by
  simp [resize]; omega

theorem resize_prefix {α : Type} (l c : List α) (d : α) (h : c <+: l) : resize l c.length d = c := by
  obtain ⟨t, rfl⟩ := h
  simp [resize]

/-! ## The positions touched -/

/-- Positions of the code an operation may put the original word at (a position that `unpatch_code`
invents is 0, the head of the program). -/
def touched : Op → List Nat
  | .patch i _ => [i]
  | .unpatch _ => [0]
  | _ => []

/-- What holds between a commit with code `code` and values `values` and the next. -/
structure Since (orig : List Word) (code values : List Word) (s : St) : Prop where
  len : s.code.length = orig.length
  diff : ∀ j, s.code[j]? ≠ code[j]? → j ∈ s.patches
  orig_at : ∀ j ∈ s.patches, code[j]? = orig[j]?
  values_prefix : values <+: s.values
  vci : s.vci = values.length

theorem since_step (orig code values : List Word) (s s' : St) (op : Op) (hs : Since orig code values s)
    (hv : values.length < 65536) (hne : op ≠ .commit) (ht : ∀ i ∈ touched op, code[i]? = orig[i]?)
    (hw : ∀ i w, op = .write i w → values.length ≤ i) (h : step orig s op = some s') :
    Since orig code values s' := by
  cases op with
  | patch i w =>
    simp only [step, patchCode] at h
    split at h
    · rename_i hi
      simp only [Option.some.injEq] at h
      subst h
      refine ⟨by simp [hs.len], ?_, ?_, hs.values_prefix, hs.vci⟩
      · intro j hj
        simp only at hj
        by_cases hji : j = i
        · simp [hji]
        · rw [List.getElem?_set_ne (Ne.symm hji)] at hj
          exact List.mem_append_left _ (hs.diff j hj)
      · intro j hj
        simp only [List.mem_append, List.mem_cons, List.not_mem_nil, or_false] at hj
        rcases hj with hj | rfl
        · exact hs.orig_at j hj
        · exact ht j (by simp [touched])
    · cases h
  | push w =>
    simp only [step, pushValue, Option.some.injEq] at h
    subst h
    exact ⟨hs.len, hs.diff, hs.orig_at, hs.values_prefix.trans (List.prefix_append _ _), hs.vci⟩
  | write i w =>
    simp only [step, writeValue, Option.some.injEq] at h
    subst h
    refine ⟨hs.len, hs.diff, hs.orig_at, ?_, hs.vci⟩
    have hi := hw i w rfl
    obtain ⟨t, ht⟩ := hs.values_prefix
    simp only
    rw [← ht]
    split
    · rw [List.set_append_right _ _ hi]; exact List.prefix_append _ _
    · rename_i hc
      simp only [resize]
      rw [List.take_of_length_le (by omega), List.append_assoc, List.set_append_right _ _ hi]
      exact List.prefix_append _ _
  | unpatch k =>
    simp only [step, unpatch] at h
    split at h
    · simp only [Option.some.injEq] at h
      subst h
      refine ⟨by simp [restore_length, hs.len], ?_, ?_, hs.values_prefix, hs.vci⟩
      · intro j hj
        simp only at hj
        rw [restore_get _ _ _ hs.len] at hj
        by_cases hd : j ∈ s.patches.drop k
        · rw [if_pos hd, hs.orig_at j (List.mem_of_mem_drop hd)] at hj
          exact absurd rfl hj
        · rw [if_neg hd] at hj
          have := hs.diff j hj
          rw [← List.take_append_drop k s.patches, List.mem_append] at this
          simp only [resize, List.mem_append]
          rcases this with h' | h'
          · exact Or.inl h'
          · exact absurd h' hd
      · intro j hj
        simp only [resize, List.mem_append, List.mem_replicate] at hj
        rcases hj with hj | ⟨_, rfl⟩
        · exact hs.orig_at j (List.mem_of_mem_take hj)
        · exact ht 0 (by simp [touched])
    · cases h
  | rollback =>
    simp only [step, rollback] at h
    split at h
    · split at h
      · simp only [Option.some.injEq] at h
        subst h
        refine ⟨by simp [restore_length, hs.len], ?_, by simp, hs.values_prefix, hs.vci⟩
        intro j hj
        simp only at hj
        rw [restore_get _ _ _ hs.len] at hj
        by_cases hp : j ∈ s.patches
        · rw [if_pos hp, hs.orig_at j hp] at hj; exact absurd rfl hj
        · rw [if_neg hp] at hj; exact absurd (hs.diff j hj) hp
      · simp only [Option.some.injEq] at h
        have e : (if s.vci > 0 then resize s.values s.vci blank else []) = values := by
          rw [hs.vci]
          split
          · exact resize_prefix _ _ _ hs.values_prefix
          · rename_i hz
            exact (List.length_eq_zero_iff.mp (by omega)).symm
        rw [e] at h
        subst h
        refine ⟨by simp [restore_length, hs.len], ?_, by simp, List.prefix_refl _, Nat.mod_eq_of_lt hv⟩
        intro j hj
        simp only at hj
        rw [restore_get _ _ _ hs.len] at hj
        by_cases hp : j ∈ s.patches
        · rw [if_pos hp, hs.orig_at j hp] at hj; exact absurd rfl hj
        · rw [if_neg hp] at hj; exact absurd (hs.diff j hj) hp
    · cases h
  | commit => exact absurd rfl hne

theorem since_run (orig code values : List Word) (s s' : St) (ops : List Op) (hs : Since orig code values s)
    (hv : values.length < 65536) (hne : ∀ op ∈ ops, op ≠ .commit)
    (ht : ∀ op ∈ ops, ∀ i ∈ touched op, code[i]? = orig[i]?)
    (hw : ∀ op ∈ ops, ∀ i w, op = .write i w → values.length ≤ i) (h : run orig s ops = some s') :
    Since orig code values s' := by
  induction ops generalizing s with
  | nil => simp only [run, Option.some.injEq] at h; subst h; exact hs
  | cons o os ih =>
    simp only [run] at h
    cases hst : step orig s o with
    | none => rw [hst] at h; cases h
    | some t =>
      rw [hst] at h
      exact ih t (since_step orig code values s t o hs hv (hne o (by simp)) (ht o (by simp)) (hw o (by simp)) hst)
        (fun op hop => hne op (List.mem_cons_of_mem _ hop)) (fun op hop => ht op (List.mem_cons_of_mem _ hop))
        (fun op hop => hw op (List.mem_cons_of_mem _ hop)) h

theorem since_rollback (orig code values : List Word) (s s' : St) (hs : Since orig code values s)
    (hv : values.length < 65536) (h : rollback orig s = some s') :
    s'.code = code ∧ s'.values = values ∧ s'.patches = [] := by
  have hs' := since_step orig code values s s' .rollback hs hv (by simp) (by simp [touched]) (by simp) h
  have hp : s'.patches = [] := by
    simp only [rollback] at h
    split at h
    · split at h
      · simp only [Option.some.injEq] at h; subst h; rfl
      · simp only [Option.some.injEq] at h; subst h; rfl
    · cases h
  refine ⟨?_, ?_, hp⟩
  · apply List.ext_getElem?
    intro j
    by_contra hc
    have := hs'.diff j hc
    rw [hp] at this; cases this
  · have hvl : s'.values.length = values.length := by
      simp only [rollback] at h
      split at h
      · split at h
        · rename_i e
          simp only [Option.some.injEq] at h; subst h; simp only; rw [← e, hs.vci]
        · simp only [Option.some.injEq] at h; subst h; simp only
          rw [hs.vci]
          split
          · rw [resize_length]
          · simp; omega
      · cases h
    obtain ⟨t, ht⟩ := hs'.values_prefix
    rw [← ht] at hvl ⊢
    simp only [List.length_append] at hvl
    rw [List.length_eq_zero_iff.mp (show t.length = 0 by omega), List.append_nil]

/-! ## C39 -/

/-- Missing: patches, since the commit, of positions whose committed word is not the original one
(patched before the commit, or a template argument).  Other rollbacks and unpatches may lie between. -/
theorem C39_rollback_partial (orig : List Word) (s0 s2 s3 : St) (mid : List Op)
    (hl : s0.code.length = orig.length) (hc : ∀ op ∈ mid, op ≠ .commit)
    (hw : ∀ op ∈ mid, ∀ i w, op = .write i w → s0.values.length ≤ i) (hv : s0.values.length < 65536)
    (ht : ∀ op ∈ mid, ∀ i ∈ touched op, s0.code[i]? = orig[i]?)
    (hrun : run orig (commit s0) mid = some s2) (hr : rollback orig s2 = some s3) :
    s3.code = s0.code ∧ s3.values = s0.values ∧ s3.patches = [] := by
  have h0 : Since orig s0.code s0.values (commit s0) :=
    ⟨hl, fun j hj => absurd rfl hj, by simp [commit], List.prefix_refl _, Nat.mod_eq_of_lt hv⟩
  exact since_rollback orig s0.code s0.values s2 s3 (since_run orig _ _ _ _ mid h0 hv hc ht hw hrun) hv hr

/-- Before the first commit: the code after `patch_tpl_args`, and no values. -/
theorem C39_rollback_first (orig code : List Word) (s2 s3 : St) (mid : List Op) (hl : code.length = orig.length)
    (hc : ∀ op ∈ mid, op ≠ .commit) (ht : ∀ op ∈ mid, ∀ i ∈ touched op, code[i]? = orig[i]?)
    (hrun : run orig (fresh code) mid = some s2) (hr : rollback orig s2 = some s3) :
    s3.code = code ∧ s3.values = [] := by
  have h0 : Since orig code [] (fresh code) :=
    ⟨hl, fun j hj => absurd rfl hj, by simp [fresh], List.nil_prefix, rfl⟩
  have := since_rollback orig code [] s2 s3 (since_run orig _ _ _ _ mid h0 (by simp) hc ht (by simp) hrun) (by simp) hr
  exact ⟨this.1, this.2.1⟩

/-- `unpatch_code(k)` takes back exactly the patches after the first `k`: if these positions held the
original words when there were `k` patches, that code is restored, and values are left alone. -/
theorem C39_unpatch (orig : List Word) (s s1 s2 : St) (ps : List (Nat × Word)) (hl : s.code.length = orig.length)
    (ho : ∀ p ∈ ps, s.code[p.1]? = orig[p.1]?) (h1 : run orig s (ps.map fun p => .patch p.1 p.2) = some s1)
    (h2 : unpatch orig s1 s.patches.length = some s2) :
    s2.code = s.code ∧ s2.patches = s.patches ∧ s2.values = s.values := by
  have hi : s1.code.length = orig.length ∧ s1.patches = s.patches ++ ps.map (·.1) ∧ s1.values = s.values ∧
      ∀ j, j ∉ ps.map (·.1) → s1.code[j]? = s.code[j]? := by
    clear ho h2
    induction ps generalizing s with
    | nil =>
      simp only [List.map_nil, run, Option.some.injEq] at h1
      subst h1
      exact ⟨hl, by simp, rfl, fun j _ => rfl⟩
    | cons p ps ih =>
      simp only [List.map_cons, run, step, patchCode] at h1
      by_cases hp : p.1 < s.code.length
      · rw [if_pos hp] at h1
        obtain ⟨a, b, c, d⟩ := ih _ (by simpa using hl) h1
        refine ⟨a, by rw [b]; simp, c, ?_⟩
        intro j hj
        simp only [List.map_cons, List.mem_cons, not_or] at hj
        rw [d j hj.2]
        simp only
        rw [List.getElem?_set_ne (Ne.symm hj.1)]
      · rw [if_neg hp] at h1; cases h1
  obtain ⟨a, b, c, d⟩ := hi
  simp only [unpatch] at h2
  split at h2
  · simp only [Option.some.injEq] at h2
    subst h2
    refine ⟨?_, by simp only; rw [b]; simp [resize], c⟩
    simp only
    apply List.ext_getElem?
    intro j
    rw [restore_get _ _ _ a, b, List.drop_left]
    by_cases hj : j ∈ ps.map (·.1)
    · rw [if_pos hj]
      obtain ⟨p, hp, rfl⟩ := List.mem_map.mp hj
      exact (ho p hp).symm
    · rw [if_neg hj]; exact d j hj
  · cases h2

set_option maxRecDepth 8000 in
/-- Patching a position, committing, patching it again: the rollback brings back the original word,
not the committed one. -/
theorem C39_rollback_violated : ¬ C39_full ∧
    (run [0#32] (fresh [0#32]) [.patch 0 1#32, .commit, .patch 0 2#32, .rollback]).map (·.code) = some [0#32] := by
  refine ⟨fun hf => ?_, by decide⟩
  have := hf [0#32] ⟨[1#32], [0], [], 0⟩ _ _ ⟨[0#32], [], [], 0⟩ [.patch 0 2#32] rfl (by simp) (by simp) (by decide) rfl
    rfl rfl
  exact absurd this.1 (by decide)

/-! ## Offsprings -/

/-- The offspring of an overlay should be the overlay at its last commit. -/
def C39_offspring_full : Prop :=
  ∀ (orig : List Word) (s t r : St), offspring orig s = some t → rollback orig s = some r →
    t.code = r.code ∧ t.values.take t.vci = r.values.take t.vci

/-- Its code is. -/
theorem C39_offspring_partial (orig : List Word) (s t r : St) (h1 : offspring orig s = some t)
    (h2 : rollback orig s = some r) : t.code = r.code ∧ t.patches = r.patches := by
  simp only [offspring] at h1
  simp only [rollback] at h2
  split at h1
  · rename_i hp
    rw [if_pos hp] at h2
    simp only [Option.some.injEq] at h1
    subst h1
    split at h2
    · simp only [Option.some.injEq] at h2; subst h2; exact ⟨rfl, rfl⟩
    · simp only [Option.some.injEq] at h2; subst h2; exact ⟨rfl, rfl⟩
  · cases h1

set_option maxRecDepth 8000 in
/-- Its values are not: they follow 128 new atoms, so every pointer to one of the first committed values
reads a new atom.  The second part starts from a new overlay: a value is computed and committed, the
offspring of the overlay reads a new atom in its place. -/
theorem C39_offspring_violated : ¬ C39_offspring_full ∧
    ((run [0#32] (fresh [0#32]) [.patch 0 (valuePointer 128#16), .push 7#32, .commit]).bind fun s =>
      (offspring [0#32] s).map fun t => (s.code, s.values[128]?, t.code, t.values[128]?)) =
        some ([valuePointer 128#16], some 7#32, [valuePointer 128#16], some blank) ∧
    ∀ (orig : List Word) (s t : St) (i : Nat), offspring orig s = some t → i < s.vci → i < 128 →
      t.values[i]? = some blank := by
  refine ⟨fun hf => ?_, by decide, ?_⟩
  · have := hf [] ⟨[], [], [7#32], 1⟩ _ _ rfl rfl
    exact absurd this.2 (by decide)
  · intro orig s t i h hi h128
    simp only [offspring] at h
    split at h
    · simp only [Option.some.injEq] at h
      subst h
      simp only
      rw [List.getElem?_append_left (by simpa using h128), List.getElem?_replicate, if_pos h128]
    · cases h

/-- The hypotheses of `C39_rollback_partial` are met by an overlay with a committed patch and value,
other patches and values, and a failed attempt in between. -/
theorem C39_rollback_nonvacuous :
    let s0 : St := ⟨[9#32, 5#32, 2#32], [1], [7#32], 0⟩
    let mid : List Op := [.patch 2 4#32, .push 8#32, .rollback, .patch 2 6#32, .write 3 1#32]
    (run [9#32, 1#32, 2#32] (commit s0) (mid ++ [.rollback])).map (fun s => (s.code, s.values)) =
      some ([9#32, 5#32, 2#32], [7#32]) ∧
    (∀ op ∈ mid, ∀ i ∈ touched op, s0.code[i]? = [9#32, 1#32, 2#32][i]?) := by
  refine ⟨by decide, ?_⟩
  intro op hop i hi
  simp only [List.mem_cons, List.not_mem_nil, or_false] at hop
  rcases hop with rfl | rfl | rfl | rfl | rfl <;> simp [touched] at hi <;> subst hi <;> rfl

end Verif.Overlay
