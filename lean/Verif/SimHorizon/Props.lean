import Verif.SimHorizon.Model
/-!
# C52, C66: the time allotted to simulations
-/
namespace Verif.SimHorizon
open Verif.F32

/-- C52 in full. The factor is a `float32` between 0 and 1, the bounds are not negative. -/
def C52_full : Prop :=
  ∀ (f : Rat) (min max now deadline : Int), 0 ≤ f → f ≤ 1 → fl f = f → 0 ≤ min → 0 ≤ max →
    -2 ^ 63 ≤ deadline - now → deadline - now < 2 ^ 63 →
    ∃ r, getSimThz f min max now deadline = some r ∧ 0 ≤ r ∧ r ≤ max ∧
      (r = 0 ∨ ((r + min : Int) : Rat) ≤ f * ((deadline - now : Int) : Rat))

theorem trunc_le {q : Rat} (h : 0 ≤ q) : ((trunc q : Int) : Rat) ≤ q := by
  unfold trunc; rw [if_pos h]; exact Int.floor_le q

theorem trunc_nonneg {q : Rat} (h : 0 ≤ q) : 0 ≤ trunc q := by
  unfold trunc; rw [if_pos h]; exact Int.floor_nonneg.2 h

theorem trunc_nonpos {q : Rat} (h : q ≤ 0) : trunc q ≤ 0 := by
  unfold trunc
  split_ifs with h0
  · have : q = 0 := le_antisymm h h0
    rw [this]; simp
  · exact Int.ceil_le.2 (by simpa using h)

theorem le_trunc {q : Rat} {n : Int} (h0 : q ≤ 0) (h : (n : Rat) ≤ q) : n ≤ trunc q := by
  unfold trunc
  split_ifs with h1
  · exact Int.le_floor.2 h
  · have := Int.le_ceil q
    exact_mod_cast h.trans this

theorem fl_nonpos {q : Rat} (h : q ≤ 0) : fl q ≤ 0 := by
  unfold fl
  split_ifs with h0
  · exact le_refl _
  · have : roundEven (q / ulp q) ≤ 0 :=
      roundEven_le (n := 0) (by simpa using div_nonpos_of_nonpos_of_nonneg h (ulp_pos q).le)
    exact mul_nonpos_of_nonpos_of_nonneg (by exact_mod_cast this) (ulp_pos q).le

theorem fl_up {q : Rat} (h : 0 ≤ q) : fl q ≤ q * (1 + 1 / 2 ^ 24) := by
  have h1 := (abs_le.1 (fl_err h)).2
  linarith

/-- The share computed for a horizon that is not negative is at most the true one, up to rounding
twice. -/
theorem share_le {f : Rat} {h : Int} (hf : 0 ≤ f) (hh : 0 ≤ h) :
    0 ≤ fl (fl h * f) ∧ fl (fl h * f) ≤ f * h * (1 + 1 / 2 ^ 24) ^ 2 := by
  have hq : (0 : Rat) ≤ (h : Rat) := by exact_mod_cast hh
  have h1 : 0 ≤ fl (h : Rat) * f := mul_nonneg (fl_nonneg hq) hf
  refine ⟨fl_nonneg h1, (fl_up h1).trans ?_⟩
  have h2 : fl (h : Rat) * f ≤ h * (1 + 1 / 2 ^ 24) * f := mul_le_mul_of_nonneg_right (fl_up hq) hf
  calc fl (h : Rat) * f * (1 + 1 / 2 ^ 24) ≤ h * (1 + 1 / 2 ^ 24) * f * (1 + 1 / 2 ^ 24) :=
        mul_le_mul_of_nonneg_right h2 (by norm_num)
    _ = f * h * (1 + 1 / 2 ^ 24) ^ 2 := by ring

theorem fl_23 : fl (16777219 : Rat) = 16777220 := by
  have := sub_one_stuck.1
  norm_num at this
  exact this

theorem fl_24 : fl (16777220 : Rat) = 16777220 := by
  rw [fl_down 24 8388610] <;> norm_num

/-- With the factor 1 and 16777219 us left the simulation is given 16777220 us: one more than there is.
With the factor 1 and the longest horizon the conversion is undefined. -/
theorem C52_horizon_violated :
    ¬ C52_full ∧ getSimThz 1 0 50000000 1 16777220 = some 16777220 ∧
    getSimThz 1 0 50000 0 (2 ^ 63 - 1) = none := by
  have h : getSimThz 1 0 50000000 1 16777220 = some 16777220 := by
    have e1 : ((16777220 - 1 : Int) : Rat) = 16777219 := by norm_num
    simp only [getSimThz, getSimTimeHorizon, i64]
    rw [if_pos (by norm_num)]
    simp only [e1, fl_23, mul_one, fl_24]
    have : trunc (16777220 : Rat) = 16777220 := by exact_mod_cast trunc_int 16777220
    rw [this]
    norm_num
  refine ⟨fun hf => ?_, h, ?_⟩
  · obtain ⟨r, hr, _, _, h2⟩ := hf 1 0 50000000 1 16777220 (by norm_num) (by norm_num) fl_one
      (by norm_num) (by norm_num) (by norm_num) (by norm_num)
    rw [h] at hr
    simp only [Option.some.injEq] at hr
    subst hr
    norm_num at h2
  · have h1 : fl ((2 ^ 63 - 1 - 0 : Int) : Rat) = 2 ^ 63 := by
      have h0 : (0 : Rat) < ((2 ^ 63 - 1 - 0 : Int) : Rat) := by norm_num
      have hu : ulp ((2 ^ 63 - 1 - 0 : Int) : Rat) = 2 ^ 39 := by
        rw [ulp_of 62] <;> norm_num
      unfold fl
      rw [if_neg h0.ne', hu]
      have hr : roundEven (((2 ^ 63 - 1 - 0 : Int) : Rat) / 2 ^ 39) = 2 ^ 24 := by
        unfold roundEven
        have : ⌊((2 ^ 63 - 1 - 0 : Int) : Rat) / 2 ^ 39⌋ = 2 ^ 24 - 1 := by
          rw [Int.floor_eq_iff]; norm_num
        rw [this]; norm_num
      rw [hr]; norm_num
    have h2 : fl (2 ^ 63 : Rat) = 2 ^ 63 := by
      have hu : ulp (2 ^ 63 : Rat) = 2 ^ 40 := by
        rw [ulp_of 63] <;> norm_num
      unfold fl
      rw [if_neg (by norm_num), hu]
      have : (2 ^ 63 : Rat) / 2 ^ 40 = ((2 ^ 23 : Int) : Rat) := by norm_num
      rw [this, roundEven_int]; norm_num
    simp only [getSimThz, getSimTimeHorizon, i64]
    rw [if_pos (by norm_num)]
    simp only [h1, mul_one, h2]
    have : trunc (2 ^ 63 : Rat) = 2 ^ 63 := by
      rw [show (2 ^ 63 : Rat) = ((9223372036854775808 : Int) : Rat) by norm_num, trunc_int]; norm_num
    rw [this]
    norm_num

/-- C52 as far as it holds, for every factor that is not negative and every clock value and deadline.
The time is defined when the share of the time left, rounded, fits; whenever it is defined it is not
negative and not above the maximum; it leaves the minimum before the share of the time left, up to
the relative error of two roundings; it is 0 when the deadline has passed. With a factor of at most
`1 - 2^-22` the simulation and the minimum end no later than the deadline. -/
theorem C52_horizon_partial (f : Rat) (min max now deadline : Int) (hf : 0 ≤ f) (hmin : 0 ≤ min)
    (hmax : 0 ≤ max) (h1 : -2 ^ 63 ≤ deadline - now) (h2 : deadline - now < 2 ^ 63) :
    (f * ((deadline - now : Int) : Rat) * (1 + 1 / 2 ^ 24) ^ 2 < 2 ^ 63 → f ≤ 1 →
      (getSimThz f min max now deadline).isSome) ∧
    ∀ r, getSimThz f min max now deadline = some r →
      0 ≤ r ∧ r ≤ max ∧
      (r = 0 ∨ ((r + min : Int) : Rat) ≤ f * ((deadline - now : Int) : Rat) * (1 + 1 / 2 ^ 24) ^ 2) ∧
      (deadline ≤ now → r = 0) ∧
      (f ≤ 1 - 1 / 2 ^ 22 → now ≤ deadline → r = 0 ∨ now + r + min ≤ deadline) := by
  have hi : i64 (deadline - now) = some (deadline - now) := by unfold i64; rw [if_pos ⟨h1, h2⟩]
  generalize hh : deadline - now = h at *
  constructor
  · intro hlt hf1
    simp only [getSimThz, hh, hi]
    have : (getSimTimeHorizon f h).isSome := by
      simp only [getSimTimeHorizon, i64]
      rw [if_pos]; rfl
      by_cases h0 : 0 ≤ h
      · obtain ⟨s1, s2⟩ := share_le hf h0
        refine ⟨by have := trunc_nonneg s1; omega, ?_⟩
        have := (trunc_le s1).trans_lt (s2.trans_lt hlt)
        exact_mod_cast this
      · have hq : (h : Rat) ≤ 0 := by exact_mod_cast (by omega : h ≤ 0)
        have s1 : fl (h : Rat) ≤ 0 := fl_nonpos hq
        have s2 : fl (h : Rat) * f ≤ 0 := mul_nonpos_of_nonpos_of_nonneg s1 hf
        refine ⟨?_, by have := trunc_nonpos (fl_nonpos s2); omega⟩
        -- rounding keeps the numbers from -2^63 on
        have low : ∀ q : Rat, q ≤ 0 → (-2 ^ 63 : Rat) ≤ q → (-2 ^ 63 : Rat) ≤ fl q := by
          intro q hq0 hq1
          by_cases hz : q = 0
          · rw [hz, fl_zero]; norm_num
          have hneg : q < 0 := lt_of_le_of_ne hq0 hz
          have habs : |q| = -q := abs_of_neg hneg
          have hle : |q| ≤ 2 ^ 63 := by rw [habs]; linarith
          have hpos : 0 < |q| := abs_pos.2 hz
          have hlog : Int.log 2 |q| ≤ 63 := by
            have := Int.log_mono_right (b := 2) hpos hle
            have e : Int.log 2 ((2 : Rat) ^ 63) = 63 := by
              have := Int.log_zpow (R := Rat) (b := 2) (by norm_num) 63
              exact_mod_cast this
            omega
          unfold fl; rw [if_neg hz]
          have hu := ulp_pos q
          obtain ⟨k, hk⟩ : ∃ k : Nat, (63 : Int) = (Int.log 2 |q| - 23) + k :=
            ⟨(63 - (Int.log 2 |q| - 23)).toNat, by omega⟩
          have e63 : (2 : Rat) ^ 63 = ((2 ^ k : Int) : Rat) * ulp q := by
            unfold ulp
            have : ((2 : Rat) ^ (63 : Int)) = (2 : Rat) ^ (k : Int) * (2 : Rat) ^ (Int.log 2 |q| - 23) := by
              rw [← zpow_add₀ (by norm_num)]; congr 1; omega
            push_cast
            exact_mod_cast this
          have hr : -(2 ^ k : Int) ≤ roundEven (q / ulp q) := by
            apply le_roundEven
            rw [le_div_iff₀ hu]
            push_cast
            have : (-(2 : Rat) ^ k) * ulp q = -2 ^ 63 := by rw [e63]; push_cast; ring
            rw [this]; exact hq1
          have hr' : (-(2 : Rat) ^ k) ≤ (roundEven (q / ulp q) : Rat) := by exact_mod_cast hr
          have := mul_le_mul_of_nonneg_right hr' hu.le
          have e : (-(2 : Rat) ^ k) * ulp q = -2 ^ 63 := by rw [e63]; push_cast; ring
          rw [e] at this; exact this
        apply le_trunc (fl_nonpos s2)
        have a1 : (-2 ^ 63 : Rat) ≤ (h : Rat) := by exact_mod_cast h1
        have a2 := low _ hq a1
        have a3 : (-2 ^ 63 : Rat) ≤ fl (h : Rat) * f := by nlinarith
        have := low _ s2 a3
        exact_mod_cast this
    obtain ⟨t, ht⟩ := Option.isSome_iff_exists.1 this
    simp [ht]
  · intro r hr
    simp only [getSimThz, hh, hi] at hr
    cases ht : getSimTimeHorizon f h with
    | none => rw [ht] at hr; exact absurd hr (by simp)
    | some t =>
      rw [ht] at hr
      simp only [Option.some.injEq] at hr
      have htt : t = trunc (fl (fl (h : Rat) * f)) := by
        simp only [getSimTimeHorizon, i64] at ht
        split_ifs at ht
        simpa using ht.symm
      have hle : r = 0 ∨ (r + min ≤ t ∧ 0 < t) := by
        split_ifs at hr <;> omega
      have hb : 0 ≤ h → (t : Rat) ≤ f * h * (1 + 1 / 2 ^ 24) ^ 2 := by
        intro h0
        obtain ⟨s1, s2⟩ := share_le hf h0
        rw [htt]; exact (trunc_le s1).trans s2
      have hpos : 0 < t → 0 < h := by
        intro h0
        by_contra hn
        have hq : (h : Rat) ≤ 0 := by exact_mod_cast (by omega : h ≤ 0)
        have := trunc_nonpos (fl_nonpos (mul_nonpos_of_nonpos_of_nonneg (fl_nonpos hq) hf))
        omega
      refine ⟨by split_ifs at hr <;> omega, by split_ifs at hr <;> omega, ?_, ?_, ?_⟩
      · rcases hle with h0 | ⟨h0, hp⟩
        · exact Or.inl h0
        · right
          have : ((r + min : Int) : Rat) ≤ t := by exact_mod_cast h0
          exact this.trans (hb (hpos hp).le)
      · intro hd
        rcases hle with h0 | ⟨h0, hp⟩
        · exact h0
        · have := hpos hp; omega
      · intro hf2 hd
        rcases hle with h0 | ⟨h0, hp⟩
        · exact Or.inl h0
        · right
          have h3 := hb (hpos hp).le
          have hq : (0 : Rat) ≤ (h : Rat) := by exact_mod_cast (hpos hp).le
          have h4 : f * (h : Rat) * (1 + 1 / 2 ^ 24) ^ 2 ≤ (1 - 1 / 2 ^ 22) * h * (1 + 1 / 2 ^ 24) ^ 2 := by
            apply mul_le_mul_of_nonneg_right _ (by norm_num)
            exact mul_le_mul_of_nonneg_right hf2 hq
          have h5 : ((1 : Rat) - 1 / 2 ^ 22) * h * (1 + 1 / 2 ^ 24) ^ 2 ≤ h := by
            have : ((1 : Rat) - 1 / 2 ^ 22) * (1 + 1 / 2 ^ 24) ^ 2 ≤ 1 := by norm_num
            nlinarith
          have h6 : (t : Rat) ≤ h := h3.trans (h4.trans h5)
          have h7 : t ≤ h := by exact_mod_cast h6
          omega

/-- The hypotheses are met: 5 s left, half of it, 50 ms minimum and 1 s or 10 s maximum; and past the
deadline. -/
theorem C52_nonvacuous :
    getSimThz (1 / 2) 50000 10000000 1000000 6000000 = some 2450000 ∧
    getSimThz (1 / 2) 50000 1000000 1000000 6000000 = some 1000000 ∧
    getSimThz (1 / 2) 50000 1000000 6000000 6000000 = some 0 := by
  have e1 : ((6000000 - 1000000 : Int) : Rat) = 5000000 := by norm_num
  have e2 : fl (5000000 : Rat) = 5000000 := by exact_mod_cast fl_nat (n := 5000000) (by norm_num)
  have e3 : fl (5000000 * (1 / 2) : Rat) = 2500000 := by
    rw [show (5000000 * (1 / 2) : Rat) = ((2500000 : Nat) : Rat) by norm_num,
      fl_nat (by norm_num)]; norm_num
  have e4 : trunc (2500000 : Rat) = 2500000 := by exact_mod_cast trunc_int 2500000
  refine ⟨?_, ?_, ?_⟩
  · simp only [getSimThz, getSimTimeHorizon, i64]
    rw [if_pos (by norm_num)]
    simp only [e1, e2, e3, e4]
    norm_num
  · simp only [getSimThz, getSimTimeHorizon, i64]
    rw [if_pos (by norm_num)]
    simp only [e1, e2, e3, e4]
    norm_num
  · simp [getSimThz, getSimTimeHorizon, i64, fl_zero, trunc]

/-! ## Chains of sub-goals -/

/-- C66 in full: the number of models a simulated goal is chained through is bounded by the time
there is. -/
def C66_full : Prop :=
  ∀ (min thz : Int), 0 ≤ min → 0 < thz →
    ∃ n : Nat, ∀ ls : List Level, (chain min thz ls).isSome → ls.count .mdl ≤ n

theorem chain_bound (min thz : Int) (ls : List Level) (t : Int) (hm : 0 ≤ min)
    (h : chain min thz ls = some t) :
    t = thz - (min / 2) * ls.count .mdl ∧ (0 < thz → 0 < t) := by
  induction ls generalizing thz with
  | nil =>
    simp only [chain, Option.some.injEq] at h
    subst h; simp
  | cons x xs ih =>
    simp only [chain] at h
    obtain ⟨t1, h1, h2⟩ := Option.bind_eq_some_iff.1 h
    obtain ⟨i1, i2⟩ := ih t1 h2
    cases x with
    | mdl =>
      simp only [subThz] at h1
      split_ifs at h1 with hc
      simp only [Option.some.injEq] at h1
      subst h1
      refine ⟨?_, fun _ => i2 (by omega)⟩
      rw [i1, List.count_cons_self]; push_cast; ring
    | cst =>
      simp only [subThz, Option.some.injEq] at h1
      subst h1
      refine ⟨?_, i2⟩
      rw [i1, List.count_cons_of_ne (by simp)]

theorem chain_replicate (min thz : Int) (h : min / 2 = 0) (hp : 0 < thz) (n : Nat) :
    chain min thz (List.replicate n .mdl) = some thz := by
  induction n with
  | zero => rfl
  | succ n ih =>
    simp only [List.replicate_succ, chain, subThz, h, hp, gt_iff_lt, if_true, sub_zero,
      Option.bind_some]
    exact ih

/-- With the minimum 0, which the settings shipped with the system have, or 1, nothing is taken off
and chains of any length are simulated. -/
theorem C66_depth_violated :
    ¬ C66_full ∧ ∀ (thz : Int) (n : Nat), 0 < thz →
      chain 0 thz (List.replicate n .mdl) = some thz ∧
      chain 1 thz (List.replicate n .mdl) = some thz := by
  refine ⟨fun h => ?_, fun thz n hp => ⟨chain_replicate 0 thz rfl hp n, chain_replicate 1 thz rfl hp n⟩⟩
  obtain ⟨n, hn⟩ := h 0 1 (by norm_num) (by norm_num)
  have := hn (List.replicate (n + 1) .mdl) (by rw [chain_replicate 0 1 rfl (by norm_num)]; rfl)
  rw [List.count_replicate_self] at this
  omega

/-- C66 when the minimum is at least 2 us: exactly how much time is left after a chain, and how many
models it can have. -/
theorem C66_depth_partial (min thz : Int) (hm : 2 ≤ min) (hp : 0 < thz) (ls : List Level) (t : Int)
    (h : chain min thz ls = some t) :
    0 < t ∧ t = thz - (min / 2) * ls.count .mdl ∧ (ls.count .mdl : Int) < thz := by
  obtain ⟨h1, h2⟩ := chain_bound min thz ls t (by omega) h
  have h3 := h2 hp
  refine ⟨h3, h1, ?_⟩
  have h4 : 1 ≤ min / 2 := by omega
  have h5 : (0 : Int) ≤ ls.count .mdl := by positivity
  have : 1 * (ls.count .mdl : Int) ≤ (min / 2) * ls.count .mdl :=
    mul_le_mul_of_nonneg_right h4 h5
  omega

/-- The hypotheses are met. -/
theorem C66_nonvacuous :
    chain 20 100 [.mdl, .cst, .mdl, .mdl] = some 70 ∧
    chain 20 30 [.mdl, .mdl, .mdl] = none := by decide

end Verif.SimHorizon
