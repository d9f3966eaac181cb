import Mathlib.Data.Int.Log
import Mathlib.Data.Rat.Floor
import Mathlib.Tactic.Linarith
import Mathlib.Tactic.Ring
import Mathlib.Tactic.NormNum
import Mathlib.Tactic.FieldSimp
/-!
# Single precision arithmetic on rationals

Finite `float32` values are rationals. An arithmetic operation is the exact operation followed by
rounding to 24 significant bits, nearest even (IEEE 754, round to nearest). `Atom::Float(x)`
followed by `asFloat()` drops the last bit of the significand (r_code/atom.inline.cpp `Float`,
`asFloat`; proved on the bits as C03).

Simplification: the exponent range is unbounded (no overflow, no subnormals).
-/
namespace Verif.F32

/-- Nearest integer, ties to even. -/
def roundEven (x : Rat) : Int :=
  let m := ⌊x⌋
  if x - m < 1 / 2 then m else if 1 / 2 < x - m then m + 1 else if m % 2 = 0 then m else m + 1

/-- Integer part, towards zero. -/
def trunc (x : Rat) : Int := if 0 ≤ x then ⌊x⌋ else ⌈x⌉

/-- Weight of the last of 24 significant bits of `q`. -/
def ulp (q : Rat) : Rat := (2 : Rat) ^ (Int.log 2 |q| - 23)

/-- Result of a single precision operation whose exact result is `q`. -/
def fl (q : Rat) : Rat := if q = 0 then 0 else roundEven (q / ulp q) * ulp q

/-- `Atom::Float(q).asFloat()`. -/
def store (q : Rat) : Rat := if q = 0 then 0 else trunc (q / (2 * ulp q)) * (2 * ulp q)

/-- The arithmetic a computation is carried out in. -/
structure Arith where
  add : Rat → Rat → Rat
  sub : Rat → Rat → Rat
  mul : Rat → Rat → Rat
  div : Rat → Rat → Rat
  /-- write into an atom and read back -/
  store : Rat → Rat

/-- Ideal arithmetic. -/
def exact : Arith := ⟨(· + ·), (· - ·), (· * ·), (· / ·), id⟩
/-- What the processor and the atoms do. -/
def single : Arith :=
  ⟨fun a b => fl (a + b), fun a b => fl (a - b), fun a b => fl (a * b), fun a b => fl (a / b), store⟩

/-! ## Facts used elsewhere -/

theorem ulp_pos (q : Rat) : 0 < ulp q := by exact zpow_pos (by norm_num) _

theorem roundEven_int (n : Int) : roundEven n = n := by
  simp [roundEven]

theorem trunc_int (n : Int) : trunc n = n := by
  simp [trunc]

/-- Natural numbers below 2^24 are represented exactly. -/
theorem fl_nat {n : Nat} (h : n < 2 ^ 24) : fl n = n := by
  unfold fl
  by_cases h0 : n = 0
  · simp [h0]
  · rw [if_neg (by exact_mod_cast h0)]
    have hl : Nat.log 2 n < 24 := Nat.log_lt_of_lt_pow h0 h
    have hu : ulp n = (2 : Rat) ^ (-((23 - Nat.log 2 n : Nat) : Int)) := by
      unfold ulp
      congr 1
      rw [abs_of_nonneg (by positivity), Int.log_natCast]; omega
    have hd : (n : Rat) / ulp n = ((n * 2 ^ (23 - Nat.log 2 n) : Nat) : Int) := by
      rw [hu, zpow_neg, div_inv_eq_mul]; push_cast; rfl
    rw [hd, roundEven_int, ← hd, div_mul_cancel₀ _ (ulp_pos _).ne']

/-- Natural numbers up to 2^23 survive being stored in an atom. -/
theorem store_nat {n : Nat} (h : n ≤ 2 ^ 23) : store n = n := by
  unfold store
  by_cases h0 : n = 0
  · simp [h0]
  · rw [if_neg (by exact_mod_cast h0)]
    have key : ∃ k : Int, (n : Rat) / (2 * ulp n) = k := by
      by_cases he : n = 2 ^ 23
      · refine ⟨2 ^ 22, ?_⟩
        have : ulp n = 1 := by
          unfold ulp
          rw [abs_of_nonneg (by positivity), Int.log_natCast, he, Nat.log_pow (by omega)]; norm_num
        rw [this, he]; norm_num
      · have hl : Nat.log 2 n < 23 := Nat.log_lt_of_lt_pow h0 (by omega)
        have hu : 2 * ulp n = (2 : Rat) ^ (-((22 - Nat.log 2 n : Nat) : Int)) := by
          unfold ulp
          rw [abs_of_nonneg (by positivity), Int.log_natCast, ← zpow_one_add₀ (by norm_num)]
          congr 1; omega
        refine ⟨((n * 2 ^ (22 - Nat.log 2 n) : Nat) : Int), ?_⟩
        rw [hu, zpow_neg, div_inv_eq_mul]; push_cast; rfl
    obtain ⟨k, hk⟩ := key
    rw [hk, trunc_int, ← hk, div_mul_cancel₀ _ (mul_pos two_pos (ulp_pos _)).ne']

/-- Storing a non-negative number does not increase it nor make it negative. -/
theorem store_bounds {q : Rat} (h : 0 ≤ q) : 0 ≤ store q ∧ store q ≤ q := by
  unfold store
  by_cases h0 : q = 0
  · simp [h0]
  · rw [if_neg h0]
    have hp : 0 < 2 * ulp q := mul_pos two_pos (ulp_pos _)
    have hx : 0 ≤ q / (2 * ulp q) := div_nonneg h hp.le
    simp only [trunc, if_pos hx]
    constructor
    · have : (0 : Int) ≤ ⌊q / (2 * ulp q)⌋ := Int.floor_nonneg.mpr hx
      exact mul_nonneg (by exact_mod_cast this) hp.le
    · have := Int.floor_le (q / (2 * ulp q))
      calc (⌊q / (2 * ulp q)⌋ : Rat) * (2 * ulp q) ≤ q / (2 * ulp q) * (2 * ulp q) :=
            mul_le_mul_of_nonneg_right this hp.le
        _ = q := div_mul_cancel₀ _ hp.ne'

/-- Above 2^24, subtracting one may leave a number unchanged. -/
theorem sub_one_stuck : fl (16777220 - 1) = 16777220 ∧ store 16777220 = 16777220 := by
  have l1 : Int.log 2 (16777219 : Rat) = 24 := by
    rw [show (16777219 : Rat) = ((16777219 : Nat) : Rat) by norm_num, Int.log_natCast,
      Nat.log_eq_of_pow_le_of_lt_pow (m := 24) (by norm_num) (by norm_num)]; norm_num
  have l2 : Int.log 2 (16777220 : Rat) = 24 := by
    rw [show (16777220 : Rat) = ((16777220 : Nat) : Rat) by norm_num, Int.log_natCast,
      Nat.log_eq_of_pow_le_of_lt_pow (m := 24) (by norm_num) (by norm_num)]; norm_num
  have u1 : ulp 16777219 = 2 := by
    unfold ulp; rw [abs_of_nonneg (by norm_num), l1]; norm_num
  have u2 : ulp 16777220 = 2 := by
    unfold ulp; rw [abs_of_nonneg (by norm_num), l2]; norm_num
  constructor
  · rw [show (16777220 : Rat) - 1 = 16777219 by norm_num]
    unfold fl
    rw [if_neg (by norm_num), u1]
    have hf : ⌊(16777219 : Rat) / 2⌋ = 8388609 := by
      rw [Int.floor_eq_iff]; norm_num
    have : roundEven (16777219 / 2) = 8388610 := by
      unfold roundEven
      rw [hf]; norm_num
    rw [this]; norm_num
  · unfold store
    rw [if_neg (by norm_num), u2]
    have : trunc (16777220 / (2 * 2)) = 4194305 := by
      unfold trunc
      rw [if_pos (by norm_num), Int.floor_eq_iff]; norm_num
    rw [this]; norm_num

end Verif.F32
