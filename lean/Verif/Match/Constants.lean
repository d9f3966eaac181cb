import Verif.Match.Props
/-!
# Property C61: different constants do not match

Strings and durations are structures whose words hold raw data. `MatchStructure` compares these
words as if they were atoms (factory.cpp:349-362 handles time stamps separately, but neither
strings nor durations), so small words are taken for numbers and compared within the float
tolerance.
-/
namespace Verif.Match
open Verif.Atom Verif.Words

/-- The words `ws` are found from index `i` of object `o` on. -/
def WordsAt (h : Heap) (o i : Nat) (ws : List Word) : Prop :=
  ∀ k, k < ws.length → word h o (i + k) = ws[k]?

/-- The three words of a duration (`Utils::SetDuration`). -/
def durationWords (v : BitVec 64) : List Word := [duration, hi32 v, lo32 v]

/-- C61, full statement: two structures holding different strings, or different durations, do not
match, whatever the (at most 0.00001) float tolerance. -/
def C61_full : Prop :=
  (∀ (h : Heap) (oc : Opc) (t : Tol) (l i r j n : Nat) (s s' : List (BitVec 8)),
    t.float.toNat ≤ 0x3727C5AC → (∀ c ∈ s, Ascii c) → (∀ c ∈ s', Ascii c) → s.length < 255 →
    s'.length < 255 → WordsAt h l i (setString s) → WordsAt h r j (setString s') → s ≠ s' →
    matchStructure h oc t false n l i r j ≠ some true) ∧
  (∀ (h : Heap) (oc : Opc) (t : Tol) (l i r j n : Nat) (d d' : BitVec 64),
    t.float.toNat ≤ 0x3727C5AC → WordsAt h l i (durationWords d) → WordsAt h r j (durationWords d') →
    d ≠ d' → matchStructure h oc t false n l i r j ≠ some true)

/-! ## Proof internals -/

theorem tiny_expo {w : Word} (h : w.toNat < 4194304) : expo (asFloat w) = 0 ∧ sign (asFloat w) = 0 ∧
    mag (asFloat w) = 2 * w.toNat := by
  have e := asFloat_toNat w
  refine ⟨?_, ?_, ?_⟩
  · simp only [expo, e]; omega
  · simp only [sign, e]; omega
  · have : expo (asFloat w) = 0 := by simp only [expo, e]; omega
    simp only [mag, this, if_true, mant, e]; omega

/-- Two words below 2^22 are "equal numbers" for any tolerance of at least 2^-125. -/
theorem tiny_match {t : Tol} {w w' : Word} (h : w.toNat < 4194304) (h' : w'.toNat < 4194304)
    (ht : 0x01000000 ≤ t.float.toNat) (ht' : t.float.toNat < 0x7F800000) :
    matchAtom t w w' = true := by
  obtain ⟨a1, a2, a3⟩ := tiny_expo h
  obtain ⟨b1, b2, b3⟩ := tiny_expo h'
  have f1 : isFloat w = true := by rw [isFloat_eq]; exact decide_eq_true (by omega)
  have f2 : isFloat w' = true := by rw [isFloat_eq]; exact decide_eq_true (by omega)
  have v1 : value (asFloat w) = (2 * w.toNat : Nat) := by simp [value, a2, a3]
  have v2 : value (asFloat w') = (2 * w'.toNat : Nat) := by simp [value, b2, b3]
  have te : 2 ≤ expo t.float ∧ expo t.float < 255 := by simp only [expo]; omega
  have ts : sign t.float = 0 := by simp only [sign]; omega
  have tm : 16777216 ≤ mag t.float := by
    simp only [mag, show expo t.float ≠ 0 by omega, if_false, ulp]
    calc 16777216 = 8388608 * 2 ^ 1 := by decide
      _ ≤ (8388608 + mant t.float) * 2 ^ (expo t.float - 1) :=
        Nat.mul_le_mul (by omega) (Nat.pow_le_pow_right (by omega) (by omega))
  have n1 : isNaN t.float = false := by simp [isNaN]; omega
  have n2 : isNaN (asFloat w) = false := by simp [isNaN, a1]
  have n3 : isNaN (asFloat w') = false := by simp [isNaN, b1]
  have i1 : isInf t.float = false := by simp [isInf]; omega
  have i2 : isInf (asFloat w) = false := by simp [isInf, a1]
  have i3 : isInf (asFloat w') = false := by simp [isInf, b1]
  have hc : closer t.float (asFloat w) (asFloat w') = true := by
    have hd : (value (asFloat w) - value (asFloat w')).natAbs < 16777216 := by rw [v1, v2]; omega
    have hov : ¬ overflow ≤ (value (asFloat w) - value (asFloat w')).natAbs := by
      have : (16777216 : Nat) ≤ overflow := by decide
      omega
    simp only [closer, n1, n2, n3, i1, i2, i3, Bool.or_self, Bool.false_eq_true, if_false, round24,
      hd, if_true, ge_iff_le, hov, ts, beq_self_eq_true, Bool.true_and, decide_eq_true_eq]
    omega
  simp [matchAtom, f1, f2, equal, hc]

theorem not_special_tiny {w : Word} (h : w.toNat < 2147483648) :
    isWild w = false ∧ isVar w = false ∧ isIPtr w = false ∧ isRPtr w = false := by
  have hd := getDescriptor_toNat w
  have key : ∀ x : BitVec 8, 128 ≤ x.toNat → (getDescriptor w == x) = false := by
    intro x hx
    rw [beq_eq_false_iff_ne]
    intro he
    rw [he] at hd; omega
  simp only [isWild, isVar, isIPtr, isRPtr]
  refine ⟨?_, ?_, ?_, ?_⟩
  · rw [key _ (by decide), key _ (by decide)]; rfl
  all_goals exact key _ (by decide)

theorem lo_hi_small {d : BitVec 64} (h : d.toNat < 4194304) : hi32 d = 0 ∧ (lo32 d).toNat = d.toNat := by
  constructor
  · apply BitVec.eq_of_toNat_eq
    simp only [hi32, BitVec.toNat_setWidth, BitVec.toNat_ushiftRight, Nat.shiftRight_eq_div_pow,
      BitVec.ofNat_eq_ofNat, BitVec.toNat_ofNat]
    omega
  · simp only [lo32, BitVec.toNat_setWidth, BitVec.toNat_and]
    have : BitVec.toNat (4294967295 : BitVec 64) = 2 ^ 32 - 1 := by decide
    rw [this, Nat.and_two_pow_sub_one_eq_mod]
    omega

theorem matchWord_plain {t : Tol} {wl wr : Word} {st ob : Option Bool} (hl : wl.toNat < 2147483648)
    (hr : wr.toNat < 2147483648) : matchWord t false wl wr st ob = some (matchAtom t wl wr) := by
  obtain ⟨p1, p2, p3, p4⟩ := not_special_tiny hl
  obtain ⟨q1, q2, q3, q4⟩ := not_special_tiny hr
  simp [matchWord, sameState, p1, p2, p3, p4, q1, q2]

/-- Any two durations below 2^22 µs (about 4.19 s) match, for every float tolerance from 2^-125
up: in particular for the default 0.00001. -/
theorem short_durations_match (h : Heap) (oc : Opc) (t : Tol) (l i r j : Nat) (d d' : BitVec 64)
    (ht : 0x01000000 ≤ t.float.toNat) (ht' : t.float.toNat < 0x7F800000)
    (hd : d.toNat < 4194304) (hd' : d'.toNat < 4194304)
    (hl : WordsAt h l i (durationWords d)) (hr : WordsAt h r j (durationWords d')) :
    matchStructure h oc t false 3 l i r j = some true := by
  obtain ⟨a1, a2⟩ := lo_hi_small hd
  obtain ⟨b1, b2⟩ := lo_hi_small hd'
  have l0 := hl 0 (by simp [durationWords]); have l1 := hl 1 (by simp [durationWords]); have l2 := hl 2 (by simp [durationWords])
  have r0 := hr 0 (by simp [durationWords]); have r1 := hr 1 (by simp [durationWords]); have r2 := hr 2 (by simp [durationWords])
  simp only [durationWords, Nat.add_zero, List.getElem?_cons_zero, List.getElem?_cons_succ, a1, b1]
    at l0 l1 l2 r0 r1 r2
  have hc : (getAtomCount duration).toNat = 2 := by decide
  have m0 : matchAtom t 0 0 = true := by simp [matchAtom]
  have m1 : matchAtom t (lo32 d) (lo32 d') = true := tiny_match (by omega) (by omega) ht ht'
  rw [matchStructure, l0, r0]
  simp only [ne_eq, not_true_eq_false, if_false]
  rw [if_neg (by decide), if_neg (by decide), hc, matchFrom, l1, r1]
  simp only
  rw [matchWord_plain (by decide) (by decide), m0, if_neg (by decide), matchFrom, l2, r2]
  simp only
  rw [matchWord_plain (by omega) (by omega), m1]
  rfl

/-! ## C61 -/

/-- Heap of the counterexample: objects `(x "a")`, `(x "b")`. -/
def strHeap : Heap := fun o =>
  [⟨object 50 1 :: iPointer 2 :: setString [0x61], [], []⟩,
   ⟨object 50 1 :: iPointer 2 :: setString [0x62], [], []⟩][o]?
/-- Heap of the counterexample: objects `(x 1s)`, `(x 2s)`. -/
def durHeap : Heap := fun o =>
  [⟨object 50 1 :: iPointer 2 :: durationWords 1000000, [], []⟩,
   ⟨object 50 1 :: iPointer 2 :: durationWords 2000000, [], []⟩][o]?

/-- The full statement fails, for strings ("a" matches "b") and for durations: with the default
tolerances every two durations below 4.19 seconds match. -/
theorem C61_constants_violated :
    ¬ C61_full ∧ matchObject strHeap exOpc exTol true 4 0 1 = some true ∧
    matchObject durHeap exOpc exTol true 5 0 1 = some true ∧
    (∀ (h : Heap) (oc : Opc) (l i r j : Nat) (d d' : BitVec 64),
      d.toNat < 4194304 → d'.toNat < 4194304 → WordsAt h l i (durationWords d) →
      WordsAt h r j (durationWords d') → matchStructure h oc exTol false 3 l i r j = some true) := by
  refine ⟨?_, by decide, by decide, ?_⟩
  · intro hf
    refine hf.1 strHeap exOpc exTol 0 2 1 2 3 [0x61] [0x62] (by decide) ?_ ?_ (by decide)
      (by decide) ?_ ?_ (by decide) (by decide)
    · intro c hc
      simp only [List.mem_cons, List.not_mem_nil, or_false] at hc
      subst hc; exact ⟨by decide, by decide⟩
    · intro c hc
      simp only [List.mem_cons, List.not_mem_nil, or_false] at hc
      subst hc; exact ⟨by decide, by decide⟩
    · intro k hk
      have : k = 0 ∨ k = 1 := by
        have : (setString [0x61]).length = 2 := by decide
        omega
      rcases this with rfl | rfl <;> decide
    · intro k hk
      have : k = 0 ∨ k = 1 := by
        have : (setString [0x62]).length = 2 := by decide
        omega
      rcases this with rfl | rfl <;> decide
  · intro h oc l i r j d d' hd hd' hl hr
    exact short_durations_match h oc exTol l i r j d d' (by decide) (by decide) hd hd' hl hr

/-- A data word that is not taken for a wildcard, a variable or a pointer, nor for minus zero. -/
def Safe (w : Word) : Prop := Plain w ∧ w ≠ 0x40000000

theorem mag_lt {f g : BitVec 32} (h : expo f < expo g) : mag f < mag g := by
  have hm : mant f < 8388608 := by simp only [mant]; omega
  have hg : expo g ≠ 0 := by omega
  have g1 : mag g = (8388608 + mant g) * ulp g := by simp [mag, hg]
  by_cases he : expo f = 0
  · have : mag f = mant f := by simp [mag, he]
    rw [this, g1]
    have hp : 1 ≤ ulp g := Nat.one_le_two_pow
    calc mant f < 8388608 * 1 := by omega
      _ ≤ _ := Nat.mul_le_mul (by omega) hp
  · have : mag f = (8388608 + mant f) * ulp f := by simp [mag, he]
    rw [this, g1]
    have h1 : (8388608 + mant f) * ulp f < 16777216 * ulp f :=
      Nat.mul_lt_mul_of_pos_right (by omega) (Nat.two_pow_pos _)
    have h2 : 2 * ulp f ≤ ulp g := by
      have : 2 * ulp f = 2 ^ (expo f) := by
        simp only [ulp]
        rw [Nat.mul_comm, ← Nat.pow_succ]; congr 1; omega
      rw [this]
      exact Nat.pow_le_pow_right (by omega) (by omega)
    calc (8388608 + mant f) * ulp f < 16777216 * ulp f := h1
      _ = 8388608 * (2 * ulp f) := by rw [← Nat.mul_assoc]
      _ ≤ _ := Nat.mul_le_mul (by omega) h2

theorem mag_inj {f g : BitVec 32} (h : mag f = mag g) : expo f = expo g ∧ mant f = mant g := by
  have he : expo f = expo g := by
    rcases Nat.lt_trichotomy (expo f) (expo g) with h1 | h1 | h1
    · have := mag_lt h1; omega
    · exact h1
    · have := mag_lt h1; omega
  refine ⟨he, ?_⟩
  by_cases h0 : expo f = 0
  · have h0' := h0; rw [he] at h0'
    simpa [mag, h0, h0'] using h
  · have h0' := h0; rw [he] at h0'
    simp only [mag, h0, h0', if_false, ulp, he] at h
    have := Nat.eq_of_mul_eq_mul_right (Nat.two_pow_pos _) h
    omega

theorem zero_tol_atom {t : Tol} {l r : Word} (ht : t.float = 0) (hl : l ≠ 0x40000000)
    (hr : r ≠ 0x40000000) (h : SameAtom t l r) : l = r := by
  rcases h with h | ⟨f1, f2, h⟩
  · exact h
  rw [isFloat_eq] at f1 f2
  simp only [decide_eq_true_eq] at f1 f2
  have c0 : closer t.float (asFloat l) (asFloat r) = false := by
    rw [ht]
    have hm : mag 0#32 = 0 := by decide
    simp only [closer]
    split
    · rfl
    · split
      · rfl
      · rw [if_neg (by decide)]; simp [hm]
  simp only [equal, c0, Bool.or_false, feq] at h
  have e1 := asFloat_toNat l
  have e2 := asFloat_toNat r
  have n1 : l.toNat ≠ 0x40000000 := fun hh => hl (BitVec.eq_of_toNat_eq (by simpa using hh))
  have n2 : r.toNat ≠ 0x40000000 := fun hh => hr (BitVec.eq_of_toNat_eq (by simpa using hh))
  split at h
  · cases h
  · split at h
    · have := beq_iff_eq.mp h
      apply BitVec.eq_of_toNat_eq
      have := congrArg BitVec.toNat this
      omega
    · have hv := beq_iff_eq.mp h
      apply BitVec.eq_of_toNat_eq
      have hmag : mag (asFloat l) = mag (asFloat r) := by
        simp only [value] at hv; split at hv <;> split at hv <;> omega
      have hz : sign (asFloat l) ≠ sign (asFloat r) → mag (asFloat l) = 0 := by
        intro hs
        have s1 : sign (asFloat l) < 2 := by simp only [sign]; omega
        have s2 : sign (asFloat r) < 2 := by simp only [sign]; omega
        simp only [value] at hv; split at hv <;> split at hv <;> omega
      obtain ⟨q1, q2⟩ := mag_inj hmag
      by_cases hs : sign (asFloat l) = sign (asFloat r)
      · simp only [sign, expo, mant, e1, e2] at hs q1 q2; omega
      · have h0 := hz hs
        have z1 := mag_inj (f := asFloat l) (g := 0#32) (by rw [h0]; decide)
        have z0 : expo 0#32 = 0 ∧ mant 0#32 = 0 := by decide
        rw [z0.1, z0.2] at z1
        simp only [sign, expo, mant, e1, e2] at hs q1 q2 z1; omega

/-- C61, proved part: with a float tolerance of zero, structures other than time stamps whose data
words are not taken for special words match only if they are equal word for word. Missing: positive
tolerances and other data words, for which the statement is false. -/
theorem C61_constants_partial (h : Heap) (oc : Opc) (t : Tol) (n l i r j : Nat) (hd : Word)
    (ws vs : List Word) (ha : HasArgs h oc) (ht : t.float = 0) (hk : getDescriptor hd ≠ 0xC7)
    (hlen : ws.length = (getAtomCount hd).toNat) (hlen' : vs.length = (getAtomCount hd).toNat)
    (hw : ∀ w ∈ ws, Safe w) (hv : ∀ w ∈ vs, Safe w)
    (hl : WordsAt h l i (hd :: ws)) (hr : WordsAt h r j (hd :: vs))
    (hm : matchStructure h oc t false n l i r j = some true) : ws = vs := by
  have hs := ((match_spec h oc t false ha n).2.1 l i r j).1 hm
  have l0 := hl 0 (by simp); have r0 := hr 0 (by simp)
  simp only [Nat.add_zero, List.getElem?_cons_zero] at l0 r0
  cases hs with
  | empty q1 q2 q3 =>
    rw [l0] at q1; cases q1
    rw [q3] at hlen hlen'
    have a := List.length_eq_zero_iff.mp hlen
    have b := List.length_eq_zero_iff.mp hlen'
    rw [a, b]
  | time q1 q2 q3 => rw [l0] at q1; cases q1; exact absurd q3 hk
  | args q1 q2 q3 q4 =>
    rw [l0] at q1; cases q1
    apply List.ext_getElem (by omega)
    intro k h1 h2
    have lk := hl (k + 1) (by simp; omega)
    have rk := hr (k + 1) (by simp; omega)
    simp only [List.getElem?_cons_succ] at lk rk
    rw [List.getElem?_eq_getElem h1] at lk
    rw [List.getElem?_eq_getElem h2] at rk
    obtain ⟨p1, p2⟩ := hw _ (List.getElem_mem h1)
    obtain ⟨s1, s2⟩ := hv _ (List.getElem_mem h2)
    cases q4 (k + 1) _ _ (by omega) (by omega) lk rk with
    | wildL c => exact absurd c p1.1
    | wildR c => exact absurd c s1.1
    | vars c => exact absurd c p1.2.1
    | varL _ c => exact absurd c p1.2.1
    | varR _ c => exact absurd c s1.2.1
    | sub c => exact absurd c p1.2.2.1
    | obj c => exact absurd c p1.2.2.2
    | plain _ _ c => exact zero_tol_atom ht p2 s2 c

/-- Hypotheses met: "abc" against itself, with tolerance zero. -/
example : matchStructure
    (fun o => if o < 2 then some ⟨setString [0x61, 0x62, 0x63], [], []⟩ else none) exOpc
    { float := 0, time := 1 } false 3 0 0 1 0 = some true ∧
    (∀ w ∈ (setString [0x61, 0x62, 0x63]).tail, Safe w) := by
  refine ⟨by decide, ?_⟩
  intro w hw
  have : (setString [0x61, 0x62, 0x63]).tail = [0x00636261#32] := by decide
  rw [this] at hw
  simp only [List.mem_cons, List.not_mem_nil, or_false] at hw
  subst hw
  exact ⟨⟨by decide, by decide, by decide, by decide⟩, by decide⟩

end Verif.Match
