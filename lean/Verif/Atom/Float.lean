import Verif.Atom.Props
/-!
# Property C03 (numbers in code words)

A 32-bit IEEE pattern is read as sign, exponent and mantissa; the magnitude of a finite number is
given exactly as a natural number of units of 2^-149 (the smallest denormal).
-/
namespace Verif.Atom

/-- IEEE 754 sign bit. -/
def sign (f : BitVec 32) : Nat := f.toNat / 2147483648
/-- IEEE 754 biased exponent. -/
def expo (f : BitVec 32) : Nat := f.toNat / 8388608 % 256
/-- IEEE 754 trailing significand. -/
def mant (f : BitVec 32) : Nat := f.toNat % 8388608
def Finite (f : BitVec 32) : Prop := expo f < 255
def IsInf (f : BitVec 32) : Prop := expo f = 255 ∧ mant f = 0
def IsNaN (f : BitVec 32) : Prop := expo f = 255 ∧ mant f ≠ 0
/-- One unit in the last place, in units of 2^-149. -/
def ulp (f : BitVec 32) : Nat := 2 ^ (expo f - 1)
/-- Magnitude in units of 2^-149: denormals have exponent 0, normals an implicit leading one. -/
def mag (f : BitVec 32) : Nat :=
  if expo f = 0 then mant f else (8388608 + mant f) * ulp f

/-- A number stored in an atom and read back. -/
def kept (f : BitVec 32) : BitVec 32 := asFloat (float f)

theorem kept_toNat (f : BitVec 32) : (kept f).toNat = f.toNat - f.toNat % 2 := by
  have := f.isLt
  rw [kept, asFloat_toNat, float_toNat]; omega

theorem kept_sign (f : BitVec 32) : sign (kept f) = sign f := by
  simp only [sign, kept_toNat]; omega
theorem kept_expo (f : BitVec 32) : expo (kept f) = expo f := by
  simp only [expo, kept_toNat]; omega
theorem kept_mant (f : BitVec 32) : mant (kept f) = mant f - mant f % 2 := by
  simp only [mant, kept_toNat]; omega

theorem kept_mag (f : BitVec 32) : mag f = mag (kept f) + mant f % 2 * ulp f := by
  simp only [mag, ulp, kept_expo, kept_mant]
  split
  · rename_i h; simp [h]; omega
  · rw [← Nat.add_mul]; congr 1; omega

/-- C03: sign and exponent are kept, a finite number stays finite, its magnitude never grows and
shrinks by at most one unit in the last place. -/
theorem C03_precision (f : BitVec 32) (h : Finite f) :
    sign (kept f) = sign f ∧ expo (kept f) = expo f ∧ Finite (kept f) ∧
    mag (kept f) ≤ mag f ∧ mag f - mag (kept f) ≤ ulp f := by
  refine ⟨kept_sign f, kept_expo f, ?_, ?_, ?_⟩
  · simpa [Finite, kept_expo] using h
  · rw [kept_mag f]; omega
  · have := kept_mag f
    have h2 : mant f % 2 * ulp f ≤ ulp f := by
      have : mant f % 2 ≤ 1 := by omega
      calc mant f % 2 * ulp f ≤ 1 * ulp f := Nat.mul_le_mul_right _ this
        _ = ulp f := Nat.one_mul _
    omega

/-- C03: the relative error of a normal number is below 2^-22 (in fact at most 2^-23). -/
theorem C03_relative_error (f : BitVec 32) (hn : expo f ≠ 0) :
    (mag f - mag (kept f)) * 8388608 ≤ mag f := by
  have := kept_mag f
  have h1 : mag f - mag (kept f) = mant f % 2 * ulp f := by omega
  rw [h1]
  simp only [mag, hn, if_false]
  have : mant f % 2 * 8388608 ≤ 8388608 + mant f := by omega
  calc mant f % 2 * ulp f * 8388608 = mant f % 2 * 8388608 * ulp f := by
        rw [Nat.mul_assoc, Nat.mul_comm (ulp f), ← Nat.mul_assoc]
    _ ≤ _ := Nat.mul_le_mul_right _ this

/-- C03: numbers with an even mantissa — all integers below 2^23 in magnitude included — are
exact, and storing the read value again changes nothing. -/
theorem C03_idempotent (f : BitVec 32) :
    kept (kept f) = kept f ∧ (mant f % 2 = 0 → kept f = f) := by
  constructor
  · apply BitVec.eq_of_toNat_eq; rw [kept_toNat, kept_toNat]; omega
  · intro h
    apply BitVec.eq_of_toNat_eq
    rw [kept_toNat]
    simp only [mant] at h
    omega

/-- C03: infinities are exact and are the words of the infinity constants. -/
theorem C03_infinities (f : BitVec 32) (h : IsInf f) :
    kept f = f ∧ (float f = plusInfinity ∨ float f = minusInfinity) := by
  have hl := f.isLt
  refine ⟨(C03_idempotent f).2 (by rw [h.2]), ?_⟩
  obtain ⟨h1, h2⟩ := h
  simp only [expo, mant] at h1 h2
  have : f.toNat = 0x7F800000 ∨ f.toNat = 0xFF800000 := by omega
  rcases this with e | e
  · left
    have : f = 0x7F800000 := BitVec.eq_of_toNat_eq e
    subst this; decide
  · right
    have : f = 0xFF800000 := BitVec.eq_of_toNat_eq e
    subst this; decide

/-- C03: zeros are exact, and the only nonzero numbers read back as zero are the two smallest
denormals. -/
theorem C03_zero (f : BitVec 32) : mag (kept f) = 0 ↔ mag f ≤ 1 := by
  have hp : 0 < ulp f := Nat.two_pow_pos _
  have h := kept_mag f
  by_cases he : expo f = 0
  · simp only [mag, kept_expo, he, if_true, kept_mant]; omega
  · simp only [mag, kept_expo, he, if_false, kept_mant, ulp] at h ⊢
    have h3 : 0 < 2 ^ (expo f - 1) := Nat.two_pow_pos _
    have h4 : 8388608 * 1 ≤ (8388608 + (mant f - mant f % 2)) * 2 ^ (expo f - 1) :=
      Nat.mul_le_mul (by omega) h3
    have h5 : 8388608 * 1 ≤ (8388608 + mant f) * 2 ^ (expo f - 1) :=
      Nat.mul_le_mul (by omega) h3
    omega

/-- C03, the NaN boundary: a NaN reads back as a NaN except for the two patterns of payload 1,
which become infinities. -/
theorem C03_nan (f : BitVec 32) (h : IsNaN f) :
    (IsNaN (kept f) ↔ mant f ≠ 1) ∧ (mant f = 1 → IsInf (kept f)) := by
  obtain ⟨h1, h2⟩ := h
  simp only [IsNaN, IsInf, kept_expo, kept_mant, h1, true_and]
  omega

/-- C03: the order of magnitudes is preserved. -/
theorem C03_monotone (f g : BitVec 32) (h : sign f = sign g) (hle : f.toNat ≤ g.toNat) :
    sign (kept f) = sign (kept g) ∧ (kept f).toNat ≤ (kept g).toNat := by
  rw [kept_sign, kept_sign, kept_toNat, kept_toNat]
  exact ⟨h, by omega⟩

/-- Instances: 0.1f is finite with an odd mantissa, so it does lose its last bit. -/
example : Finite 0x3DCCCCCD ∧ expo 0x3DCCCCCD ≠ 0 ∧ kept 0x3DCCCCCD = 0x3DCCCCCC := by
  refine ⟨?_, ?_, ?_⟩ <;> simp [Finite, expo, kept, asFloat, float]
example : IsInf 0xFF800000 ∧ IsNaN 0x7FC00000 := by
  simp [IsInf, IsNaN, expo, mant]

end Verif.Atom
