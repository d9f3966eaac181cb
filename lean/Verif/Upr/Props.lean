import Verif.Upr.Model
import Mathlib.Tactic.Linarith
import Mathlib.Tactic.Ring
/-!
# Property C25: updates fall on the group's period grid
-/
namespace Verif.Upr

/-- `t` is a whole number of periods `u` away from the reference. -/
def OnGrid (reference u t : Int) : Prop := ∃ k : Int, t = reference + k * u

/-- C25: for an instant not before the time reference, the next update time is the first grid
point after it, the previous one the last grid point not after it. -/
theorem C25_grid (reference base : Int) (upr : Nat) (now : Int) (hb : 0 < base) (hu : 0 < upr)
    (hn : reference ≤ now) :
    let u : Int := upr * base
    (OnGrid reference u (nextUprTime reference base upr now) ∧
      now < nextUprTime reference base upr now ∧
      ∀ t, OnGrid reference u t → now < t → nextUprTime reference base upr now ≤ t) ∧
    (OnGrid reference u (prevUprTime reference base upr now) ∧
      prevUprTime reference base upr now ≤ now ∧
      ∀ t, OnGrid reference u t → t ≤ now → t ≤ prevUprTime reference base upr now) := by
  intro u
  have hup : 0 < u := Int.mul_pos (by exact_mod_cast hu) hb
  have h0 : 0 ≤ now - reference := by omega
  have hd : (now - reference).tmod u = (now - reference) % u := Int.tmod_eq_emod_of_nonneg h0
  have h1 := Int.emod_nonneg (now - reference) hup.ne'
  have h2 := Int.emod_lt_of_pos (now - reference) hup
  have h3 := Int.mul_ediv_add_emod (now - reference) u
  have en : nextUprTime reference base upr now = now - (now - reference) % u + u := by
    simp only [nextUprTime, Nat.pos_iff_ne_zero.mp hu, if_false]
    rw [← hd]
  have ep : prevUprTime reference base upr now = now - (now - reference) % u := by
    simp only [prevUprTime, Nat.pos_iff_ne_zero.mp hu, if_false]
    rw [← hd]
  generalize (now - reference) % u = d at *
  generalize (now - reference) / u = q at *
  rw [en, ep]
  have hprev : ∀ t, OnGrid reference u t → t ≤ now → t ≤ now - d := by
    rintro t ⟨k, rfl⟩ hk
    have : k ≤ q := by
      by_contra hc
      have : (q + 1) * u ≤ k * u := Int.mul_le_mul_of_nonneg_right (by omega) hup.le
      nlinarith
    have : k * u ≤ q * u := Int.mul_le_mul_of_nonneg_right this hup.le
    nlinarith
  refine ⟨⟨⟨q + 1, by linarith [mul_comm u q, add_mul q 1 u]⟩, by omega, ?_⟩,
    ⟨q, by linarith [mul_comm u q]⟩, by omega, hprev⟩
  rintro t ⟨k, rfl⟩ hk
  have : q + 1 ≤ k := by
    by_contra hc
    have : k * u ≤ q * u := Int.mul_le_mul_of_nonneg_right (by omega) hup.le
    nlinarith
  have : (q + 1) * u ≤ k * u := Int.mul_le_mul_of_nonneg_right this hup.le
  nlinarith

/-- C25: every update of a group is planned on the grid, one period after the previous one. -/
theorem C25_chain (reference base : Int) (upr : Nat) (now : Int) (hb : 0 < base) (hu : 0 < upr)
    (hn : reference ≤ now) (k : Nat) :
    ∃ t, plannedTime reference base upr now k = some t ∧ OnGrid reference (upr * base) t ∧
      t = nextUprTime reference base upr now + k * (upr * base) := by
  induction k with
  | zero => exact ⟨_, rfl, (C25_grid reference base upr now hb hu hn).1.1, by simp⟩
  | succ k ih =>
    obtain ⟨t, e, ⟨j, hj⟩, ht⟩ := ih
    refine ⟨t + upr * base, by simp [plannedTime, e, rearm, hu], ⟨j + 1, by rw [hj]; ring⟩, ?_⟩
    rw [ht]; push_cast; ring

/-- C25: a group whose update period is zero is never updated. -/
theorem C25_no_period (reference base now : Int) :
    nextUprTime reference base 0 now = maxTime ∧ plannedTime reference base 0 now 1 = none := by
  constructor <;> rfl

/-- Before the time reference the computed times are wrong (division truncates towards zero): with
reference 0 and period 10, the "previous" update time of -3 is 0. -/
theorem C25_before_reference : prevUprTime 0 10 1 (-3) = 0 ∧ nextUprTime 0 10 1 (-3) = 10 := by
  decide

example : nextUprTime 5 10 3 100 = 125 ∧ prevUprTime 5 10 3 100 = 95 ∧ nextUprTime 5 10 3 95 = 125 := by
  decide

end Verif.Upr
