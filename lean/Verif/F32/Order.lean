import Verif.F32.Model
/-!
# Order and error bounds of single precision arithmetic

`fl` and `store` (`Verif.F32.Model`, modelling `/repo/r_code/atom.inline.cpp` `Float`, `asFloat` and the
processor's rounding) are monotone on non-negative numbers and have the usual relative error.
-/
namespace Verif.F32

theorem le_roundEven {x : Rat} {n : Int} (h : (n : Rat) ≤ x) : n ≤ roundEven x := by
  have hf : n ≤ ⌊x⌋ := Int.le_floor.2 h
  unfold roundEven; simp only
  split
  · exact hf
  · split
    · omega
    · split <;> omega

theorem roundEven_le {x : Rat} {n : Int} (h : x ≤ (n : Rat)) : roundEven x ≤ n := by
  have h1 : (⌊x⌋ : Rat) ≤ x := Int.floor_le x
  have hf : ⌊x⌋ ≤ n := by
    have : (⌊x⌋ : Rat) ≤ n := h1.trans h
    exact_mod_cast this
  rcases hf.lt_or_eq with hlt | heq
  · unfold roundEven; simp only
    split
    · omega
    · split
      · omega
      · split <;> omega
  · have hx : x = n := le_antisymm h (by rw [← heq]; exact h1)
    rw [hx, roundEven_int]

theorem roundEven_mono {x y : Rat} (h : x ≤ y) : roundEven x ≤ roundEven y := by
  have hf : ⌊x⌋ ≤ ⌊y⌋ := Int.floor_le_floor h
  rcases hf.lt_or_eq with hlt | heq
  · calc roundEven x ≤ ⌊x⌋ + 1 := roundEven_le (by push_cast; exact (Int.lt_floor_add_one x).le)
      _ ≤ ⌊y⌋ := by omega
      _ ≤ roundEven y := le_roundEven (Int.floor_le y)
  · unfold roundEven; simp only [heq]
    by_cases h1 : x - (⌊y⌋ : Rat) < 1 / 2
    · rw [if_pos h1]
      by_cases h2 : y - (⌊y⌋ : Rat) < 1 / 2
      · rw [if_pos h2]
      · rw [if_neg h2]; split
        · omega
        · split <;> omega
    · have h2 : ¬ y - (⌊y⌋ : Rat) < 1 / 2 := by linarith
      rw [if_neg h1, if_neg h2]
      by_cases h3 : 1 / 2 < x - (⌊y⌋ : Rat)
      · have h4 : 1 / 2 < y - (⌊y⌋ : Rat) := by linarith
        rw [if_pos h3, if_pos h4]
      · rw [if_neg h3]
        by_cases h4 : 1 / 2 < y - (⌊y⌋ : Rat)
        · rw [if_pos h4]; split <;> omega
        · rw [if_neg h4]

theorem roundEven_err (x : Rat) : |(roundEven x : Rat) - x| ≤ 1 / 2 := by
  have h1 := Int.floor_le x
  have h2 := Int.lt_floor_add_one x
  unfold roundEven; simp only
  rw [abs_le]
  split
  · constructor <;> linarith
  · split
    · push_cast; constructor <;> linarith
    · split
      · constructor <;> linarith
      · push_cast; constructor <;> linarith

/-! ## Magnitude -/

theorem log_bounds {q : Rat} (h : 0 < q) :
    (2 : Rat) ^ (Int.log 2 |q|) ≤ q ∧ q < (2 : Rat) ^ (Int.log 2 |q| + 1) := by
  rw [abs_of_pos h]
  exact ⟨by exact_mod_cast Int.zpow_log_le_self (b := 2) (by norm_num) h,
    by exact_mod_cast Int.lt_zpow_succ_log_self (b := 2) (by norm_num) q⟩

theorem pow_eq_ulp (q : Rat) : (2 : Rat) ^ (Int.log 2 |q|) = ((2 ^ 23 : Int) : Rat) * ulp q := by
  unfold ulp
  rw [zpow_sub₀ (by norm_num)]; push_cast
  rw [mul_div_cancel₀ _ (by norm_num)]

theorem pow_succ_eq_ulp (q : Rat) : (2 : Rat) ^ (Int.log 2 |q| + 1) = ((2 ^ 24 : Int) : Rat) * ulp q := by
  rw [zpow_add_one₀ (by norm_num), pow_eq_ulp]; push_cast; ring

theorem fl_between {q : Rat} (h : 0 < q) :
    (2 : Rat) ^ (Int.log 2 |q|) ≤ fl q ∧ fl q ≤ (2 : Rat) ^ (Int.log 2 |q| + 1) := by
  obtain ⟨h1, h2⟩ := log_bounds h
  have hu := ulp_pos q
  unfold fl; rw [if_neg h.ne']
  constructor
  · rw [pow_eq_ulp] at h1 ⊢
    exact mul_le_mul_of_nonneg_right
      (by exact_mod_cast le_roundEven ((le_div_iff₀ hu).2 h1)) hu.le
  · rw [pow_succ_eq_ulp] at h2 ⊢
    exact mul_le_mul_of_nonneg_right
      (by exact_mod_cast roundEven_le ((div_le_iff₀ hu).2 h2.le)) hu.le

theorem fl_zero : fl 0 = 0 := by simp [fl]
theorem store_zero : store 0 = 0 := by simp [store]

theorem fl_pos {q : Rat} (h : 0 < q) : 0 < fl q :=
  lt_of_lt_of_le (zpow_pos (by norm_num) _) (fl_between h).1

theorem fl_nonneg {q : Rat} (h : 0 ≤ q) : 0 ≤ fl q := by
  rcases h.lt_or_eq with h | h
  · exact (fl_pos h).le
  · rw [← h, fl_zero]

/-- Rounding preserves order. -/
theorem fl_mono {x y : Rat} (h0 : 0 ≤ x) (h : x ≤ y) : fl x ≤ fl y := by
  rcases h0.lt_or_eq with h0 | h0
  · have hy : 0 < y := lt_of_lt_of_le h0 h
    have hl : Int.log 2 |x| ≤ Int.log 2 |y| := by
      rw [abs_of_pos h0, abs_of_pos hy]; exact Int.log_mono_right h0 h
    rcases hl.lt_or_eq with hlt | heq
    · exact (fl_between h0).2.trans ((zpow_le_zpow_right₀ (by norm_num) (by omega)).trans (fl_between hy).1)
    · have hu : ulp x = ulp y := by unfold ulp; rw [heq]
      unfold fl; rw [if_neg h0.ne', if_neg hy.ne', hu]
      exact mul_le_mul_of_nonneg_right
        (by exact_mod_cast roundEven_mono (div_le_div_of_nonneg_right h (ulp_pos y).le)) (ulp_pos y).le
  · rw [← h0, fl_zero]; exact fl_nonneg (h0 ▸ h)

/-- Relative error of rounding. -/
theorem fl_err {q : Rat} (h : 0 ≤ q) : |fl q - q| ≤ q / 2 ^ 24 := by
  rcases h.lt_or_eq with h | h
  · have hu := ulp_pos q
    have h1 := (log_bounds h).1
    rw [pow_eq_ulp] at h1
    have h2 := roundEven_err (q / ulp q)
    have h3 : fl q - q = ((roundEven (q / ulp q) : Rat) - q / ulp q) * ulp q := by
      unfold fl; rw [if_neg h.ne', sub_mul, div_mul_cancel₀ _ hu.ne']
    rw [h3, abs_mul, abs_of_pos hu]
    have h4 := mul_le_mul_of_nonneg_right h2 hu.le
    refine h4.trans ?_
    rw [le_div_iff₀ (by norm_num)]
    push_cast at h1; linarith
  · rw [← h, fl_zero]; norm_num

theorem store_eq {q : Rat} (h : 0 < q) : store q = (⌊q / (2 * ulp q)⌋ : Rat) * (2 * ulp q) := by
  unfold store trunc
  rw [if_neg h.ne', if_pos (div_nonneg h.le (mul_pos two_pos (ulp_pos q)).le)]

theorem store_between {q : Rat} (h : 0 < q) : (2 : Rat) ^ (Int.log 2 |q|) ≤ store q := by
  have h1 := (log_bounds h).1
  have hp : 0 < 2 * ulp q := mul_pos two_pos (ulp_pos q)
  have h2 : (2 : Rat) ^ (Int.log 2 |q|) = ((2 ^ 22 : Int) : Rat) * (2 * ulp q) := by
    rw [pow_eq_ulp]; push_cast; ring
  rw [store_eq h, h2]
  rw [h2] at h1
  exact mul_le_mul_of_nonneg_right
    (by exact_mod_cast Int.le_floor.2 ((le_div_iff₀ hp).2 h1)) hp.le

/-- Storing preserves order. -/
theorem store_mono {x y : Rat} (h0 : 0 ≤ x) (h : x ≤ y) : store x ≤ store y := by
  rcases h0.lt_or_eq with h0 | h0
  · have hy : 0 < y := lt_of_lt_of_le h0 h
    have hl : Int.log 2 |x| ≤ Int.log 2 |y| := by
      rw [abs_of_pos h0, abs_of_pos hy]; exact Int.log_mono_right h0 h
    rcases hl.lt_or_eq with hlt | heq
    · refine (store_bounds h0.le).2.trans ((log_bounds h0).2.le.trans ?_)
      exact (zpow_le_zpow_right₀ (by norm_num) (by omega)).trans (store_between hy)
    · have hu : ulp x = ulp y := by unfold ulp; rw [heq]
      have hp : 0 < 2 * ulp y := mul_pos two_pos (ulp_pos y)
      rw [store_eq h0, store_eq hy, hu]
      exact mul_le_mul_of_nonneg_right
        (by exact_mod_cast Int.floor_le_floor (div_le_div_of_nonneg_right h hp.le)) hp.le
  · rw [← h0, store_zero]; exact (store_bounds (h0 ▸ h)).1

/-- A number that survives being stored is a single precision number. -/
theorem fl_of_store {q : Rat} (h : 0 ≤ q) (hs : store q = q) : fl q = q := by
  rcases h.lt_or_eq with h | h
  · have hu := ulp_pos q
    rw [store_eq h] at hs
    have : q / ulp q = ((⌊q / (2 * ulp q)⌋ * 2 : Int) : Rat) := by
      rw [div_eq_iff hu.ne']; push_cast; linarith
    unfold fl; rw [if_neg h.ne', this, roundEven_int, ← this, div_mul_cancel₀ _ hu.ne']
  · rw [← h, fl_zero]

theorem fl_one : fl 1 = 1 := by exact_mod_cast fl_nat (n := 1) (by norm_num)
theorem store_one : store 1 = 1 := by exact_mod_cast store_nat (n := 1) (by norm_num)

/-! ## Evaluation -/

theorem ulp_of {q : Rat} (L : Int) (h1 : (2 : Rat) ^ L ≤ q) (h2 : q < (2 : Rat) ^ (L + 1)) :
    ulp q = (2 : Rat) ^ (L - 23) := by
  have hq : 0 < q := lt_of_lt_of_le (zpow_pos (by norm_num) _) h1
  have a := (Int.zpow_le_iff_le_log (b := 2) (by norm_num) hq).1 (by exact_mod_cast h1)
  have b := (Int.lt_zpow_iff_log_lt (b := 2) (by norm_num) hq).1 (by exact_mod_cast h2)
  unfold ulp; rw [abs_of_pos hq]; congr 1; omega

/-- `fl q` for a positive `q` of known magnitude, rounding down. -/
theorem fl_down {q : Rat} (L m : Int) (h1 : (2 : Rat) ^ L ≤ q) (h2 : q < (2 : Rat) ^ (L + 1))
    (h3 : (m : Rat) ≤ q / (2 : Rat) ^ (L - 23)) (h4 : q / (2 : Rat) ^ (L - 23) < m + 1 / 2) :
    fl q = m * (2 : Rat) ^ (L - 23) := by
  have hq : 0 < q := lt_of_lt_of_le (zpow_pos (by norm_num) _) h1
  unfold fl; rw [if_neg hq.ne', ulp_of L h1 h2]
  have hf : ⌊q / (2 : Rat) ^ (L - 23)⌋ = m := Int.floor_eq_iff.2 ⟨h3, by linarith⟩
  unfold roundEven; simp only [hf]; rw [if_pos (by linarith)]

theorem store_down {q : Rat} (L m : Int) (h1 : (2 : Rat) ^ L ≤ q) (h2 : q < (2 : Rat) ^ (L + 1))
    (h3 : (m : Rat) ≤ q / (2 * (2 : Rat) ^ (L - 23))) (h4 : q / (2 * (2 : Rat) ^ (L - 23)) < m + 1) :
    store q = m * (2 * (2 : Rat) ^ (L - 23)) := by
  have hq : 0 < q := lt_of_lt_of_le (zpow_pos (by norm_num) _) h1
  rw [store_eq hq, ulp_of L h1 h2, Int.floor_eq_iff.2 ⟨h3, h4⟩]

end Verif.F32
