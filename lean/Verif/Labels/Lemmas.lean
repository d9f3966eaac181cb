import Verif.Labels.Model
import Mathlib.Data.List.Perm.Subperm
import Mathlib.Data.List.Nodup

/-! # Names that are free, and the two passes -/
namespace Verif.Labels

/-! ## Suffixes -/

def decode (l : Name) : Nat := l.foldl (fun a c => a * 26 + (c.toNat - 97)) 0

theorem letter_toNat {n : Nat} (h : n < 26) : (letter n).toNat = 97 + n := by
  have : ∀ n, n < 26 → (letter n).toNat = 97 + n := by decide
  exact this n h

theorem decode_makeSuffix (v : Nat) : decode (makeSuffix v) = v := by
  induction v using Nat.strongRecOn with
  | _ v ih =>
    unfold makeSuffix
    by_cases h : v < 26
    · rw [if_pos h]
      simp only [decode, List.foldl_cons, List.foldl_nil, letter_toNat h]
      omega
    · rw [if_neg h]
      have := ih (v / 26) (by omega)
      simp only [decode] at this
      simp only [decode, List.foldl_append, this, List.foldl_cons, List.foldl_nil, letter_toNat (show v % 26 < 26 by omega)]
      omega

theorem makeSuffix_inj {v w : Nat} (h : makeSuffix v = makeSuffix w) : v = w := by
  rw [← decode_makeSuffix v, ← decode_makeSuffix w, h]

theorem known_iff {s : St} {n : Name} : known s n = true ↔ n ∈ s.indices.map Prod.fst := by
  simp only [known, List.any_eq_true, decide_eq_true_eq, List.mem_map]

/-- Among more suffixes than there are names, one is free. -/
theorem some_free (s : St) (n : Name) (h : s.indices.length < 4294967295) :
    ∃ k ≤ s.indices.length, known s (n ++ makeSuffix ((1 + k) % 4294967296)) = false := by
  by_contra hc
  have hk : ∀ k ≤ s.indices.length, n ++ makeSuffix (1 + k) ∈ s.indices.map Prod.fst := by
    intro k hk
    rw [← known_iff]
    by_contra hn
    refine hc ⟨k, hk, ?_⟩
    rw [Nat.mod_eq_of_lt (by omega)]
    simpa using hn
  have hnd : ((List.range (s.indices.length + 1)).map fun k => n ++ makeSuffix (1 + k)).Nodup := by
    refine List.nodup_range.map ?_
    intro a b hab
    have := makeSuffix_inj (List.append_cancel_left hab)
    omega
  have hsub : ((List.range (s.indices.length + 1)).map fun k => n ++ makeSuffix (1 + k)) ⊆ s.indices.map Prod.fst := by
    intro x hx
    obtain ⟨k, hk', rfl⟩ := List.mem_map.mp hx
    exact hk k (by have := List.mem_range.mp hk'; omega)
  have := (hnd.subperm hsub).length_le
  simp only [List.length_map, List.length_range] at this
  omega

theorem tryFrom_free (s : St) (n : Name) : ∀ (f v : Nat), (∃ k < f, known s (n ++ makeSuffix ((v + k) % 4294967296)) = false) →
    ∃ m, tryFrom s n f v = some m ∧ known s m = false ∧ ∃ t, m = n ++ t
  | 0, _, ⟨k, hk, _⟩ => by omega
  | f + 1, v, ⟨k, hk, h⟩ => by
    simp only [tryFrom]
    cases hv : known s (n ++ makeSuffix (v % 4294967296)) with
    | false => exact ⟨_, rfl, hv, _, rfl⟩
    | true =>
      simp only [if_true]
      cases k with
      | zero => rw [Nat.add_zero, hv] at h; cases h
      | succ k => exact tryFrom_free s n f (v + 1) ⟨k, by omega, by rw [show v + 1 + k = v + (k + 1) by omega]; exact h⟩

/-! ## The first pass -/

theorem pass1_ok (sy : BitVec 32 → Option Name) : ∀ (r : List Sys) (s : St) (i : Nat), (∀ k, i ≤ k → s.names k = none) →
    ∃ s', pass1 sy s i r = (true, s') ∧
      (∀ k, s'.names k = if k < i then s.names k else (r[k - i]?).bind fun o => sy o.oid) ∧
      (∀ n, known s n = true → known s' n = true) ∧ (∀ n o, o ∈ r → sy o.oid = some n → known s' n = true) ∧
      s'.indices.length ≤ s.indices.length + r.length ∧
      ∀ x, s'.named x = true ↔ s.named x = true ∨ ∃ o ∈ r, (sy o.oid).isSome ∧ o.oid.setWidth 16 = x
  | [], s, i, h => by
    refine ⟨s, rfl, fun k => ?_, fun _ h => h, by simp, by simp, by simp⟩
    by_cases hk : k < i
    · rw [if_pos hk]
    · rw [if_neg hk, h k (by omega)]; rfl
  | o :: r, s, i, h => by
    cases ho : sy o.oid with
    | none =>
      obtain ⟨s', h1, h2, h3, h4, h5, h6⟩ := pass1_ok sy r s (i + 1) (fun k hk => h k (by omega))
      refine ⟨s', by simp only [pass1, ho, h1], fun k => ?_, h3, fun n p hp hn => ?_, by simp only [List.length_cons]; omega, fun x => ?_⟩
      · rw [h2 k]
        by_cases hk : k < i
        · rw [if_pos hk, if_pos (by omega)]
        · rw [if_neg hk]
          by_cases hk' : k = i
          · subst hk'; rw [if_pos (by omega), h k (by omega), Nat.sub_self]; simp [ho]
          · rw [if_neg (by omega), show k - i = k - (i + 1) + 1 by omega, List.getElem?_cons_succ]
      · rcases List.mem_cons.mp hp with rfl | hp
        · rw [ho] at hn; cases hn
        · exact h4 n p hp hn
      · rw [h6 x]
        simp only [List.mem_cons, exists_eq_or_imp, ho, Option.isSome_none, Bool.false_eq_true, false_and, false_or]
    | some n =>
      obtain ⟨s', h1, h2, h3, h4, h5, h6⟩ := pass1_ok sy r (put { s with named := fun x => x = o.oid.setWidth 16 || s.named x } i n) (i + 1)
        (fun k hk => by simp only [put]; rw [if_neg (by omega)]; exact h k (by omega))
      have hkn : known (put { s with named := fun x => x = o.oid.setWidth 16 || s.named x } i n) n = true := by simp [known, put]
      refine ⟨s', by simp only [pass1, ho, h i (Nat.le_refl i), Option.any_none, Bool.false_eq_true, if_false, h1], fun k => ?_, fun m hm => ?_, fun m p hp hm => ?_, ?_, fun x => ?_⟩
      · rw [h2 k]
        by_cases hk : k < i
        · rw [if_pos hk, if_pos (by omega)]; simp only [put]; rw [if_neg (by omega)]
        · rw [if_neg hk]
          by_cases hk' : k = i
          · subst hk'; rw [if_pos (by omega), Nat.sub_self]; simp [put, ho]
          · rw [if_neg (by omega), show k - i = k - (i + 1) + 1 by omega, List.getElem?_cons_succ]
      · refine h3 m ?_
        simp only [known, put, List.any_cons, Bool.or_eq_true] at hm ⊢
        exact .inr hm
      · rcases List.mem_cons.mp hp with rfl | hp
        · rw [ho] at hm; cases hm; exact h3 _ hkn
        · exact h4 m p hp hm
      · simp only [put, List.length_cons] at h5 ⊢; omega
      · rw [h6 x]
        simp only [put, List.mem_cons, exists_eq_or_imp, ho, Option.isSome_some, true_and, Bool.or_eq_true, decide_eq_true_eq]
        constructor
        · rintro ((h | h) | h)
          · exact .inr (.inl h.symm)
          · exact .inl h
          · exact .inr (.inr h)
        · rintro (h | h | h)
          · exact .inl (.inr h)
          · exact .inl (.inl h.symm)
          · exact .inr h

/-! ## The second pass -/

/-- No two objects have the same name, and all names are known. -/
structure Apart (s : St) : Prop where
  inj : ∀ a b n, s.names a = some n → s.names b = some n → a = b
  known : ∀ a n, s.names a = some n → known s n = true

theorem Apart.put {s : St} {i : Nat} {n : Name} (h : Apart s) (hn : Labels.known s n = false) : Apart (put s i n) := by
  have hne : ∀ a, s.names a ≠ some n := fun a ha => by rw [h.known a n ha] at hn; cases hn
  constructor
  · intro a b m ha hb
    simp only [Labels.put] at ha hb
    by_cases h1 : a = i
    · by_cases h2 : b = i
      · rw [h1, h2]
      · rw [if_pos h1] at ha; rw [if_neg h2] at hb; cases ha; exact absurd hb (hne b)
    · by_cases h2 : b = i
      · rw [if_neg h1] at ha; rw [if_pos h2] at hb; cases hb; exact absurd ha (hne a)
      · rw [if_neg h1] at ha; rw [if_neg h2] at hb; exact h.inj a b m ha hb
  · intro a m ha
    simp only [Labels.put] at ha
    simp only [Labels.known, Labels.put, List.any_cons, Bool.or_eq_true, decide_eq_true_eq]
    by_cases h1 : a = i
    · rw [if_pos h1] at ha; cases ha; exact .inl rfl
    · rw [if_neg h1] at ha; exact .inr (h.known a m ha)

theorem made_ident (cls : Nat → Name) (o : Sys) (k : Nat) : ∃ t, made cls o k = ident (cls o.op) ++ t := by
  unfold made
  split
  · exact ⟨_, rfl⟩
  · exact ⟨_, rfl⟩

theorem pass2_ok (cls : Nat → Name) (sy : BitVec 32 → Option Name) : ∀ (r : List Sys) (s : St) (ids : Nat → Nat) (i : Nat), Apart s →
    s.indices.length + r.length < 4294967295 →
    (∀ (k : Nat) o, r[k]? = some o → s.names (i + k) = sy o.oid) →
    ∃ s', pass2 cls sy s ids i r = some s' ∧ Apart s' ∧ s'.named = s.named ∧
      (∀ k, k < i ∨ i + r.length ≤ k → s'.names k = s.names k) ∧
      ∀ (k : Nat) o, r[k]? = some o → ∃ n, s'.names (i + k) = some n ∧
        (∀ m, sy o.oid = some m → n = m) ∧ (sy o.oid = none → ∃ t, n = ident (cls o.op) ++ t)
  | [], s, ids, i, hA, _, _ => ⟨s, rfl, hA, rfl, fun _ _ => rfl, by simp⟩
  | o :: r, s, ids, i, hA, hl, hn => by
    have h0 : s.names i = sy o.oid := hn 0 o rfl
    have hr : ∀ (k : Nat) p, r[k]? = some p → s.names (i + 1 + k) = sy p.oid := fun k p hk => by
      rw [show i + 1 + k = i + (k + 1) by omega]; exact hn (k + 1) p hk
    simp only [List.length_cons] at hl
    cases ho : sy o.oid with
    | some m =>
      obtain ⟨s', h1, h2, h3, h4, h5⟩ := pass2_ok cls sy r s ids (i + 1) hA (by omega) hr
      refine ⟨s', by simp only [pass2, ho, Option.isSome_some, true_or, if_true, h1], h2, h3, fun k hk => h4 k (by simp only [List.length_cons] at hk; omega), fun k p hk => ?_⟩
      cases k with
      | zero =>
        cases hk
        refine ⟨m, by rw [Nat.add_zero, h4 i (by omega), h0, ho], fun m' hm => by rw [ho] at hm; cases hm; rfl, fun hm => by rw [ho] at hm; cases hm⟩
      | succ k => rw [show i + (k + 1) = i + 1 + k by omega]; exact h5 k p hk
    | none =>
      rw [ho] at h0
      have fin : ∀ (ids' : Nat → Nat) (n : Name), known s n = false → (∃ t, n = ident (cls o.op) ++ t) →
          ∃ s', pass2 cls sy (put s i n) ids' (i + 1) r = some s' ∧ Apart s' ∧ s'.named = s.named ∧
            (∀ k, k < i ∨ i + (o :: r).length ≤ k → s'.names k = s.names k) ∧
            ∀ (k : Nat) p, (o :: r)[k]? = some p → ∃ n, s'.names (i + k) = some n ∧
              (∀ m, sy p.oid = some m → n = m) ∧ (sy p.oid = none → ∃ t, n = ident (cls p.op) ++ t) := by
        intro ids' n hkn ht
        obtain ⟨s', h1, h2, h3, h4, h5⟩ := pass2_ok cls sy r (put s i n) ids' (i + 1) (hA.put hkn)
          (by simp only [put, List.length_cons]; omega) (fun k p hk => by simp only [put]; rw [if_neg (by omega)]; exact hr k p hk)
        refine ⟨s', h1, h2, h3, fun k hk => ?_, fun k p hk => ?_⟩
        · simp only [List.length_cons] at hk
          rw [h4 k (by omega)]
          simp only [put]
          rw [if_neg (by omega)]
        · cases k with
          | zero =>
            cases hk
            refine ⟨n, by rw [Nat.add_zero, h4 i (by omega)]; simp [put], fun m' hm => (by rw [ho] at hm; cases hm), fun _ => ht⟩
          | succ k => rw [show i + (k + 1) = i + 1 + k by omega]; exact h5 k p hk
      simp only [pass2, ho, h0, Option.isSome_none, Bool.false_eq_true, or_self, if_false]
      cases hk : known s (made cls o (ids o.op)) with
      | false =>
        simp only [Bool.false_eq_true, if_false]
        exact fin _ _ hk (made_ident cls o _)
      | true =>
        simp only [if_true]
        obtain ⟨k, hk1, hk2⟩ := some_free s (made cls o (ids o.op)) (by omega)
        obtain ⟨m, hm, hf, t, rfl⟩ := tryFrom_free s (made cls o (ids o.op)) 4294967296 1 ⟨k, by omega, hk2⟩
        obtain ⟨t', ht'⟩ := made_ident cls o (ids o.op)
        rw [hm]
        exact fin _ _ hf ⟨t' ++ t, by rw [ht', List.append_assoc]⟩

end Verif.Labels
