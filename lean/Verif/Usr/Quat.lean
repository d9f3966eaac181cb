import Verif.Usr.Model
import Mathlib.Tactic.Ring
import Mathlib.Tactic.Linarith
import Mathlib.Algebra.Order.Field.Basic
import Mathlib.Algebra.Order.Ring.Rat
import Mathlib.Algebra.Field.Rat
import Mathlib.Algebra.Order.Group.Unbundled.Abs
/-!
# Quotients of quaternions

The operators on quaternions as they are in exact arithmetic (that of the rational numbers), the
rounding to two decimals included.
-/
namespace Verif.Usr

/-- The product of quaternions as `mul` computes it, with a given rounding. -/
def mulQ (round : Rat → Rat) (p q : List Rat) : List Rat := quatMul (· + ·) (· - ·) (· * ·) (- ·) round p q

/-- The quotient of quaternions as `div` computes it. -/
def divQ (round : Rat → Rat) (p q : List Rat) : List Rat := quatDiv (· + ·) (· - ·) (· * ·) (- ·) round (fun x => decide (x < 0)) p q

/-- Rounding to two decimals, halves up. -/
def two (x : Rat) : Rat := ((x * 100 + 1 / 2).floor : Rat) / 100

/-- C153: multiplying a rotation by the quotient of another by it gives the other, as a quaternion or
as its opposite, which is the same rotation. -/
def C153_full : Prop :=
  ∀ a b c d e f g h : Rat, a * a + b * b + c * c + d * d = 1 → e * e + f * f + g * g + h * h = 1 →
    mulQ two [e, f, g, h] (divQ two [a, b, c, d] [e, f, g, h]) = [a, b, c, d] ∨
    mulQ two [e, f, g, h] (divQ two [a, b, c, d] [e, f, g, h]) = [-a, -b, -c, -d]

/-- C153 fails: the result is rounded to two decimals. -/
theorem C153_quotient_violated : ¬ C153_full ∧
    divQ two [117 / 125, 44 / 125, 0, 0] [1, 0, 0, 0] = [94 / 100, 35 / 100, 0, 0] ∧
    mulQ two [1, 0, 0, 0] [94 / 100, 35 / 100, 0, 0] = [94 / 100, 35 / 100, 0, 0] := by
  have e1 : divQ two [117 / 125, 44 / 125, 0, 0] [1, 0, 0, 0] = [94 / 100, 35 / 100, 0, 0] := by decide +kernel
  have e2 : mulQ two [1, 0, 0, 0] [94 / 100, 35 / 100, 0, 0] = [94 / 100, 35 / 100, 0, 0] := by decide +kernel
  refine ⟨fun h => ?_, e1, e2⟩
  have := h (117 / 125) (44 / 125) 0 0 1 0 0 0 (by decide +kernel) (by decide +kernel)
  rw [e1, e2] at this
  revert this
  decide +kernel

/-- The quotient, component by component. -/
theorem div_eq (round : Rat → Rat) (a b c d e f g h : Rat) :
    ∃ s : Rat, (s = 1 ∨ s = -1) ∧ divQ round [a, b, c, d] [e, f, g, h] =
      [ s * round (a * e + b * f + c * g + d * h),
        s * -round (a * f - b * e - c * h + d * g),
        s * -round (a * g + b * h - c * e - d * f),
        s * -round (a * h - b * g + c * f - d * e) ] := by
  have e1 : - -b * f - -c * g - -d * h + a * e = a * e + b * f + c * g + d * h := by ring
  have e2 : -b * e + -c * h - -d * g + a * f = a * f - b * e - c * h + d * g := by ring
  have e3 : - -b * h + -c * e + -d * f + a * g = a * g + b * h - c * e - d * f := by ring
  have e4 : -b * g - -c * f + -d * e + a * h = a * h - b * g + c * f - d * e := by ring
  by_cases hn : round (a * e + b * f + c * g + d * h) < 0
  · refine ⟨-1, .inr rfl, ?_⟩
    simp only [divQ, quatDiv, hamilton, conj, List.map_cons, List.map_nil, e1, e2, e3, e4, firstNegative, hn, decide_true, if_true]
    congr 1
    · ring
    congr 1
    · ring
    congr 1
    · ring
    congr 1
    ring
  · refine ⟨1, .inl rfl, ?_⟩
    simp only [divQ, quatDiv, hamilton, conj, List.map_cons, List.map_nil, e1, e2, e3, e4, firstNegative, hn, decide_false, Bool.false_eq_true,
      if_false, one_mul]

/-- C153 in part: without rounding, and for quaternions of any length. -/
theorem C153_exact_partial (a b c d e f g h : Rat) :
    ∃ s : Rat, (s = 1 ∨ s = -1) ∧ mulQ id [e, f, g, h] (divQ id [a, b, c, d] [e, f, g, h]) =
      [a, b, c, d].map fun x => s * ((e * e + f * f + g * g + h * h) * x) := by
  obtain ⟨s, hs, e1⟩ := div_eq id a b c d e f g h
  refine ⟨s, hs, ?_⟩
  rw [e1]
  simp only [mulQ, quatMul, hamilton, id, List.map_cons, List.map_nil]
  congr 1
  · ring
  congr 1
  · ring
  congr 1
  · ring
  congr 1
  ring

theorem four_abs {e f g h : Rat} (hu : e * e + f * f + g * g + h * h = 1) : |e| + |f| + |g| + |h| ≤ 2 := by
  have h1 := abs_mul_abs_self e
  have h2 := abs_mul_abs_self f
  have h3 := abs_mul_abs_self g
  have h4 := abs_mul_abs_self h
  have hh : (|e| + |f| + |g| + |h|) * (|e| + |f| + |g| + |h|) ≤ 2 * 2 := by
    nlinarith [mul_self_nonneg (|e| - |f|), mul_self_nonneg (|e| - |g|), mul_self_nonneg (|e| - |h|), mul_self_nonneg (|f| - |g|),
      mul_self_nonneg (|f| - |h|), mul_self_nonneg (|g| - |h|)]
  exact abs_le_of_sq_le hh
where
  abs_le_of_sq_le {x : Rat} (hx : x * x ≤ 2 * 2) : x ≤ 2 := by nlinarith

theorem combine {e f g h x y z w k : Rat} (hx : |x| ≤ k) (hy : |y| ≤ k) (hz : |z| ≤ k) (hw : |w| ≤ k) :
    |e * x + f * y + g * z + h * w| ≤ (|e| + |f| + |g| + |h|) * k := by
  have h1 : |e * x| ≤ |e| * k := by rw [abs_mul]; exact mul_le_mul_of_nonneg_left hx (abs_nonneg e)
  have h2 : |f * y| ≤ |f| * k := by rw [abs_mul]; exact mul_le_mul_of_nonneg_left hy (abs_nonneg f)
  have h3 : |g * z| ≤ |g| * k := by rw [abs_mul]; exact mul_le_mul_of_nonneg_left hz (abs_nonneg g)
  have h4 : |h * w| ≤ |h| * k := by rw [abs_mul]; exact mul_le_mul_of_nonneg_left hw (abs_nonneg h)
  have a1 := abs_add_le (e * x + f * y + g * z) (h * w)
  have a2 := abs_add_le (e * x + f * y) (g * z)
  have a3 := abs_add_le (e * x) (f * y)
  linarith

/-- C153 in part: with a rounding that is wrong by at most a half of a hundredth, the components are
wrong by at most 0.015.  What is missing: single precision. -/
theorem C153_rounded_partial (round : Rat → Rat) (hr : ∀ x, |round x - x| ≤ 1 / 200) (a b c d e f g h : Rat)
    (hu : e * e + f * f + g * g + h * h = 1) :
    ∃ s x y z w : Rat, (s = 1 ∨ s = -1) ∧ mulQ round [e, f, g, h] (divQ round [a, b, c, d] [e, f, g, h]) = [x, y, z, w] ∧
      |x - s * a| ≤ 3 / 200 ∧ |y - s * b| ≤ 3 / 200 ∧ |z - s * c| ≤ 3 / 200 ∧ |w - s * d| ≤ 3 / 200 := by
  obtain ⟨s, hs, e1⟩ := div_eq round a b c d e f g h
  have r1 := hr (a * e + b * f + c * g + d * h)
  have r2 := hr (a * f - b * e - c * h + d * g)
  have r3 := hr (a * g + b * h - c * e - d * f)
  have r4 := hr (a * h - b * g + c * f - d * e)
  generalize hR1 : round (a * e + b * f + c * g + d * h) = R1 at r1 e1
  generalize hR2 : round (a * f - b * e - c * h + d * g) = R2 at r2 e1
  generalize hR3 : round (a * g + b * h - c * e - d * f) = R3 at r3 e1
  generalize hR4 : round (a * h - b * g + c * f - d * e) = R4 at r4 e1
  have hf := four_abs hu
  have key : ∀ {t u X Y : Rat}, |t| = 1 → Y = s * X + t * u → |u| ≤ (|e| + |f| + |g| + |h|) * (1 / 200) → |round Y - s * X| ≤ 3 / 200 := by
    intro t u X Y ht hY hu
    have h1 := hr Y
    have h2 : |t * u| ≤ 2 / 200 := by rw [abs_mul, ht]; linarith
    have h3 := abs_add_le (round Y - Y) (t * u)
    have h4 : round Y - s * X = (round Y - Y) + t * u := by rw [hY]; ring
    rw [h4]; linarith
  have hs1 : |s| = 1 := by rcases hs with rfl | rfl <;> simp
  have f2 : |-e| = |e| := abs_neg e
  refine ⟨s, _, _, _, _, hs, by rw [e1]; rfl, ?_, ?_, ?_, ?_⟩
  · refine key (u := e * (R1 - (a * e + b * f + c * g + d * h)) + f * (R2 - (a * f - b * e - c * h + d * g)) +
      g * (R3 - (a * g + b * h - c * e - d * f)) + h * (R4 - (a * h - b * g + c * f - d * e))) hs1 ?_ (combine r1 r2 r3 r4)
    have : s * a = s * ((e * e + f * f + g * g + h * h) * a) := by rw [hu, one_mul]
    rw [this]; ring
  · refine key (u := -e * (R2 - (a * f - b * e - c * h + d * g)) + f * (R1 - (a * e + b * f + c * g + d * h)) +
      -g * (R4 - (a * h - b * g + c * f - d * e)) + h * (R3 - (a * g + b * h - c * e - d * f))) hs1 ?_
      (by have := combine (e := -e) (f := f) (g := -g) (h := h) r2 r1 r4 r3; simpa using this)
    have : s * b = s * ((e * e + f * f + g * g + h * h) * b) := by rw [hu, one_mul]
    rw [this]; ring
  · refine key (u := -e * (R3 - (a * g + b * h - c * e - d * f)) + f * (R4 - (a * h - b * g + c * f - d * e)) +
      g * (R1 - (a * e + b * f + c * g + d * h)) + -h * (R2 - (a * f - b * e - c * h + d * g))) hs1 ?_
      (by have := combine (e := -e) (f := f) (g := g) (h := -h) r3 r4 r1 r2; simpa using this)
    have : s * c = s * ((e * e + f * f + g * g + h * h) * c) := by rw [hu, one_mul]
    rw [this]; ring
  · refine key (u := -e * (R4 - (a * h - b * g + c * f - d * e)) + -f * (R3 - (a * g + b * h - c * e - d * f)) +
      g * (R2 - (a * f - b * e - c * h + d * g)) + h * (R1 - (a * e + b * f + c * g + d * h))) hs1 ?_
      (by have := combine (e := -e) (f := -f) (g := g) (h := h) r4 r3 r2 r1; simpa using this)
    have : s * d = s * ((e * e + f * f + g * g + h * h) * d) := by rw [hu, one_mul]
    rw [this]; ring

/-- Rounding to two decimals is wrong by at most a half of a hundredth, and there are rotations. -/
theorem C153_nonvacuous : (∀ x, |two x - x| ≤ 1 / 200) ∧ ((3 / 5 : Rat) * (3 / 5) + 4 / 5 * (4 / 5) + 0 * 0 + 0 * 0 = 1) ∧
    divQ two [1, 0, 0, 0] [3 / 5, 4 / 5, 0, 0] = [3 / 5, -4 / 5, 0, 0] := by
  refine ⟨fun x => ?_, by decide +kernel, by decide +kernel⟩
  have h1 := Rat.floor_le (x * 100 + 1 / 2)
  have h2 := Rat.lt_floor_add_one (x * 100 + 1 / 2)
  rw [abs_le]
  unfold two
  push_cast at h2
  constructor <;> linarith

end Verif.Usr
