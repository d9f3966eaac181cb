import Verif.TimeText.Model
import Mathlib.Tactic.IntervalCases
import Mathlib.Data.List.TakeWhile
/-!
# C56: times as text
-/
namespace Verif.TimeText

/-- C56 in full: every 64-bit duration, and every time and reference with a 64-bit difference, is written
as a text that the compiler reads back as the same value, whatever follows it in the code. -/
def C56_full : Prop :=
  (∀ d : Int, -9223372036854775808 ≤ d → d < 9223372036854775808 →
    ∃ s, toStringUs d = some s ∧ ∀ rest, rest.head? ≠ some ':' → readDuration (s ++ rest) = some (d, rest)) ∧
  (∀ t ref : Int, -9223372036854775808 ≤ t - ref → t - ref < 9223372036854775808 →
    ∃ s, toStringSMsUs t ref = some s ∧ ∀ rest, readTimestamp (s ++ rest) = some (t - ref, rest))

theorem digitChar_toNat {n : Nat} (h : n < 10) : (digitChar n).toNat = 48 + n := by
  unfold digitChar
  interval_cases n <;> decide

theorem digitChar_digit {n : Nat} (h : n < 10) : isDigit (digitChar n) = true := by
  unfold isDigit
  rw [digitChar_toNat h]
  simp only [decide_eq_true_eq]
  omega

theorem dec_digits (n : Nat) : ∀ c ∈ dec n, isDigit c = true := by
  induction n using Nat.strong_induction_on with
  | _ n ih =>
    unfold dec
    split_ifs with h
    · intro c hc
      obtain rfl := List.mem_singleton.1 hc
      exact digitChar_digit h
    · intro c hc
      rcases List.mem_append.1 hc with hc | hc
      · exact ih _ (by omega) c hc
      · obtain rfl := List.mem_singleton.1 hc
        exact digitChar_digit (by omega)

theorem dec_ne (n : Nat) : dec n ≠ [] := by
  unfold dec
  split_ifs <;> simp

theorem value_dec (n : Nat) : value (dec n) = n := by
  induction n using Nat.strong_induction_on with
  | _ n ih =>
    unfold dec
    split_ifs with h
    · simp only [value, List.foldl_cons, List.foldl_nil, digitChar_toNat h]; omega
    · have := ih (n / 10) (by omega)
      unfold value at this ⊢
      rw [List.foldl_append, this]
      simp only [List.foldl_cons, List.foldl_nil]
      rw [digitChar_toNat (by omega)]
      omega

/-- No digit is a sign or a space. -/
theorem dec_head (n : Nat) (rest : List Char) :
    signOf ((dec n ++ rest).dropWhile isSpace) = (false, dec n ++ rest) := by
  cases hd : dec n with
  | nil => exact absurd hd (dec_ne n)
  | cons c cs =>
    have hc : isDigit c = true := dec_digits n c (by rw [hd]; simp)
    have hn : 48 ≤ c.toNat ∧ c.toNat ≤ 57 := by simpa [isDigit] using hc
    have hs : isSpace c = false := by
      unfold isSpace
      have h1 : c ≠ ' ' := by rintro rfl; revert hn; decide
      simp only [h1, decide_false, Bool.false_or, decide_eq_false_iff_not]
      omega
    rw [List.cons_append, List.dropWhile_cons_of_neg (by rw [hs]; simp)]
    unfold signOf
    split
    · rename_i h; injection h with h1 _; subst h1; exact absurd hn (by decide)
    · rename_i h; injection h with h1 _; subst h1; exact absurd hn (by decide)
    · rfl

theorem span_dec (n : Nat) (c : Char) (rest : List Char) (hc : isDigit c = false) :
    spanDigits (dec n ++ c :: rest) = (dec n, c :: rest) := by
  unfold spanDigits
  rw [List.takeWhile_append_of_pos (dec_digits n), List.dropWhile_append_of_pos (dec_digits n)]
  simp [hc]

theorem readDec_dec (n : Nat) (c : Char) (rest : List Char) (hc : isDigit c = false) :
    readDec (dec n ++ c :: rest) = some (false, n, c :: rest) := by
  unfold readDec
  simp only [dec_head, span_dec n c rest hc, value_dec, dec_ne, reduceCtorEq, or_self, if_false]

theorem readDec_neg (n : Nat) (c : Char) (rest : List Char) (hc : isDigit c = false) :
    readDec ('-' :: (dec n ++ c :: rest)) = some (true, n, c :: rest) := by
  unfold readDec
  rw [List.dropWhile_cons_of_neg (by decide)]
  simp only [signOf, span_dec n c rest hc, value_dec, dec_ne, reduceCtorEq, or_self, if_false]

theorem readUInt64_dec (n : Nat) (c : Char) (rest : List Char) (hc : isDigit c = false)
    (hn : n < 18446744073709551616) : readUInt64 (dec n ++ c :: rest) = some (n, c :: rest) := by
  unfold readUInt64
  rw [readDec_dec n c rest hc]
  rw [Option.bind_some]
  show (if n < 18446744073709551616 then some (wrap false n, c :: rest) else none) = _
  rw [if_pos hn]
  have : wrap false n = n := by unfold wrap; simp only [Bool.false_eq_true, if_false]
  rw [this]

theorem toInt64_small {n : Nat} (h : n < 9223372036854775808) : toInt64 n = n := by
  unfold toInt64
  have : n % 18446744073709551616 = n := Nat.mod_eq_of_lt (by omega)
  rw [this, if_pos h]

theorem readInt64_dec (d : Int) (n : Nat) (c : Char) (rest : List Char) (hc : isDigit c = false)
    (hn : n < 9223372036854775808) :
    readInt64 (sign d ++ (dec n ++ c :: rest)) = some (if d < 0 then -(n : Int) else n, c :: rest) := by
  have key : ∀ b, -9223372036854775808 ≤ signed b n ∧ signed b n < 9223372036854775808 := by
    intro b
    cases b <;> simp only [signed, Bool.false_eq_true, if_false, if_true] <;> omega
  unfold readInt64 sign
  by_cases h : d < 0
  · rw [if_pos h, List.singleton_append, readDec_neg n c rest hc, Option.bind_some]
    dsimp only
    rw [if_pos (key true), if_pos h]
    rfl
  · rw [if_neg h, List.nil_append, readDec_dec n c rest hc, Option.bind_some]
    dsimp only
    rw [if_pos (key false), if_neg h]
    rfl

/-- A number is not mistaken for a hexadecimal one. -/
theorem not_hex_aux : ∀ (l : List Char) (c : Char) (rest : List Char), (∀ x ∈ l, isDigit x = true) →
    c ≠ 'x' → l ≠ [] → matchSymbol "0x".toList (l ++ c :: rest) = none
  | [a], c, rest, _, hc, _ => by
    show matchSymbol ['0', 'x'] _ = none
    simp only [List.singleton_append, matchSymbol]
    split_ifs <;> rfl
  | a :: b :: l, c, rest, hl, hc, _ => by
    show matchSymbol ['0', 'x'] _ = none
    have hb : b ≠ 'x' := by
      rintro rfl
      exact absurd (hl 'x' (by simp)) (by decide)
    simp only [List.cons_append, matchSymbol, hb, if_false, ite_self]

theorem not_hex (d : Int) (n : Nat) (c : Char) (rest : List Char) (hc : c ≠ 'x') :
    matchSymbol "0x".toList (sign d ++ (dec n ++ c :: rest)) = none := by
  unfold sign
  by_cases h : d < 0
  · rw [if_pos h]; rfl
  · rw [if_neg h]; exact not_hex_aux _ c rest (dec_digits n) hc (dec_ne n)

theorem sign_split (d : Int) (n : Nat) (rest : List Char) :
    (matchSymbol "-".toList (sign d ++ (dec n ++ rest))).isSome = decide (d < 0) ∧
    (matchSymbol "-".toList (sign d ++ (dec n ++ rest))).getD (sign d ++ (dec n ++ rest)) = dec n ++ rest := by
  unfold sign
  show (matchSymbol ['-'] _).isSome = _ ∧ (matchSymbol ['-'] _).getD _ = _
  by_cases h : d < 0
  · rw [if_pos h]
    simp [matchSymbol, h]
  · rw [if_neg h, List.nil_append]
    cases hd : dec n with
    | nil => exact absurd hd (dec_ne n)
    | cons c cs =>
      have hc : c ≠ '-' := by
        rintro rfl
        exact absurd (dec_digits n '-' (by rw [hd]; simp)) (by decide)
      simp [matchSymbol, hc, h]

theorem C56_duration (d : Int) (h1 : -9223372036854775808 < d) (h2 : d < 9223372036854775808) :
    ∃ s, toStringUs d = some s ∧ ∀ rest, rest.head? ≠ some ':' →
      readDuration (s ++ rest) = some (d, rest) := by
  unfold toStringUs abs64
  rw [if_pos ⟨h1, h2⟩]
  refine ⟨_, rfl, fun rest hr => ?_⟩
  dsimp only
  have hb : d.natAbs < 9223372036854775808 := by omega
  by_cases e1 : d.natAbs % 1000 ≠ 0
  · simp only [if_pos e1, List.append_assoc]
    show readDuration (sign d ++ (dec d.natAbs ++ 'u' :: ('s' :: rest))) = _
    unfold readDuration
    rw [not_hex d _ 'u' _ (by decide), readInt64_dec d _ 'u' _ (by decide) hb]
    have : matchSymbol "us".toList ('u' :: 's' :: rest) = some rest := rfl
    simp only [Option.isSome_none, Bool.false_eq_true, if_false, Option.bind_some, this]
    congr 2
    split_ifs <;> omega
  rw [if_neg e1]
  have hq : d.natAbs / 1000 / 1000 ≤ d.natAbs :=
    Nat.le_trans (Nat.div_le_self _ _) (Nat.div_le_self _ _)
  by_cases e2 : d.natAbs / 1000 % 1000 ≠ 0
  · simp only [if_pos e2, List.append_assoc]
    show readDuration (sign d ++ (dec (d.natAbs / 1000) ++ 'm' :: ('s' :: rest))) = _
    unfold readDuration
    rw [not_hex d _ 'm' _ (by decide), readInt64_dec d _ 'm' _ (by decide) (by omega)]
    have hu : matchSymbol "us".toList ('m' :: 's' :: rest) = none := rfl
    have hm : matchSymbol "ms".toList ('m' :: 's' :: rest) = some rest := rfl
    simp only [Option.isSome_none, Bool.false_eq_true, if_false, Option.bind_some, hu, hm]
    have : (if d < 0 then -((d.natAbs / 1000 : Nat) : Int) else ((d.natAbs / 1000 : Nat) : Int)) * 1000 = d := by
      split_ifs <;> omega
    unfold mul64
    rw [this, if_pos ⟨by omega, h2⟩]
    rfl
  · simp only [if_neg e2, List.append_assoc]
    show readDuration (sign d ++ (dec (d.natAbs / 1000 / 1000) ++ 's' :: rest)) = _
    unfold readDuration
    rw [not_hex d _ 's' _ (by decide), readInt64_dec d _ 's' _ (by decide) (by omega)]
    have hu : matchSymbol "us".toList ('s' :: rest) = none := rfl
    have hm : matchSymbol "ms".toList ('s' :: rest) = none := rfl
    have hs : matchSymbol "s".toList ('s' :: rest) = some rest := rfl
    have hco : matchSymbol ":".toList rest = none := by
      cases rest with
      | nil => rfl
      | cons c cs =>
        have : c ≠ ':' := fun e => hr (by rw [e]; rfl)
        show matchSymbol [':'] _ = none
        simp [matchSymbol, this]
    simp only [Option.isSome_none, Bool.false_eq_true, if_false, Option.bind_some, hu, hm, hs, hco]
    have : (if d < 0 then -((d.natAbs / 1000 / 1000 : Nat) : Int) else ((d.natAbs / 1000 / 1000 : Nat) : Int)) *
        1000000 = d := by
      split_ifs <;> omega
    unfold mul64
    rw [this, if_pos ⟨by omega, h2⟩]
    rfl

theorem C56_timestamp (t ref : Int) (h1 : -9223372036854775808 < t - ref)
    (h2 : t - ref < 9223372036854775808) :
    ∃ s, toStringSMsUs t ref = some s ∧ ∀ rest, readTimestamp (s ++ rest) = some (t - ref, rest) := by
  unfold toStringSMsUs abs64
  rw [if_pos ⟨h1, h2⟩]
  refine ⟨_, rfl, fun rest => ?_⟩
  generalize t - ref = d at *
  have hb : d.natAbs < 9223372036854775808 := by omega
  have hq : d.natAbs / 1000 / 1000 ≤ d.natAbs :=
    Nat.le_trans (Nat.div_le_self _ _) (Nat.div_le_self _ _)
  have hq1 := Nat.mod_lt (d.natAbs / 1000) (show 1000 > 0 by decide)
  have hq2 := Nat.mod_lt d.natAbs (show 1000 > 0 by decide)
  simp only [List.append_assoc]
  show readTimestamp (sign d ++ (dec (d.natAbs / 1000 / 1000) ++ 's' :: (':' :: (dec (d.natAbs / 1000 % 1000) ++
    'm' :: ('s' :: (':' :: (dec (d.natAbs % 1000) ++ 'u' :: ('s' :: rest)))))))) = _
  unfold readTimestamp
  rw [not_hex d _ 's' _ (by decide), (sign_split d _ _).1, (sign_split d _ _).2]
  simp only [Option.isSome_none, Bool.false_eq_true, if_false]
  rw [readUInt64_dec _ 's' _ (by decide) (by omega)]
  have e1 : ∀ r, matchSymbol "s:".toList ('s' :: ':' :: r) = some r := fun r => rfl
  have e2 : ∀ r, matchSymbol "ms:".toList ('m' :: 's' :: ':' :: r) = some r := fun r => rfl
  have e3 : ∀ r, matchSymbol "us".toList ('u' :: 's' :: r) = some r := fun r => rfl
  simp only [Option.bind_some, e1]
  rw [readUInt64_dec _ 'm' _ (by decide) (by omega)]
  simp only [Option.bind_some, e2]
  rw [readUInt64_dec _ 'u' _ (by decide) (by omega)]
  simp only [Option.bind_some, e3, Option.map_some, decide_eq_true_eq]
  have : d.natAbs / 1000 / 1000 * 1000000 + d.natAbs / 1000 % 1000 * 1000 + d.natAbs % 1000 = d.natAbs := by
    omega
  rw [this, toInt64_small hb]
  congr 2
  split_ifs <;> omega

/-- The text of a time is not mistaken for a duration, so the compiler goes on to read it as a time. -/
theorem C56_apart (t ref : Int) (s : List Char) (h : toStringSMsUs t ref = some s) (rest : List Char) :
    readDuration (s ++ rest) = none := by
  have hb : -9223372036854775808 < t - ref ∧ t - ref < 9223372036854775808 := by
    by_contra hc
    unfold toStringSMsUs abs64 at h
    rw [if_neg hc] at h
    simp at h
  unfold toStringSMsUs abs64 at h
  rw [if_pos hb] at h
  obtain rfl := Option.some.inj h
  generalize t - ref = d at *
  have hn : d.natAbs < 9223372036854775808 := by omega
  have hq : d.natAbs / 1000 / 1000 ≤ d.natAbs :=
    Nat.le_trans (Nat.div_le_self _ _) (Nat.div_le_self _ _)
  simp only [List.append_assoc]
  show readDuration (sign d ++ (dec (d.natAbs / 1000 / 1000) ++ 's' :: (':' :: (dec (d.natAbs / 1000 % 1000) ++
    'm' :: ('s' :: (':' :: (dec (d.natAbs % 1000) ++ 'u' :: ('s' :: rest)))))))) = _
  unfold readDuration
  rw [not_hex d _ 's' _ (by decide), readInt64_dec d _ 's' _ (by decide) (by omega)]
  have hu : ∀ r, matchSymbol "us".toList ('s' :: r) = none := fun _ => rfl
  have hm : ∀ r, matchSymbol "ms".toList ('s' :: r) = none := fun _ => rfl
  have hs : ∀ r, matchSymbol "s".toList ('s' :: r) = some r := fun _ => rfl
  have hc : ∀ r, matchSymbol ":".toList (':' :: r) = some r := fun _ => rfl
  simp only [Option.isSome_none, Bool.false_eq_true, if_false, Option.bind_some, hu, hm, hs, hc,
    Option.isSome_some, if_true]

/-- C56, the part that holds: durations and differences of times other than the least `int64`. Hence the
text determines the value.
Missing: the least `int64`, whose magnitude is not an `int64`. -/
theorem C56_text_partial :
    (∀ d : Int, -9223372036854775808 < d → d < 9223372036854775808 →
      ∃ s, toStringUs d = some s ∧ ∀ rest, rest.head? ≠ some ':' → readDuration (s ++ rest) = some (d, rest)) ∧
    (∀ t ref : Int, -9223372036854775808 < t - ref → t - ref < 9223372036854775808 →
      ∃ s, toStringSMsUs t ref = some s ∧ ∀ rest, readTimestamp (s ++ rest) = some (t - ref, rest)) ∧
    (∀ (d d' : Int) s, toStringUs d = some s → toStringUs d' = some s → d = d') ∧
    (∀ (t t' ref : Int) s, toStringSMsUs t ref = some s → toStringSMsUs t' ref = some s → t = t') := by
  have hd : ∀ (d : Int) s, toStringUs d = some s → readDuration s = some (d, []) := by
    intro d s h
    have hb : -9223372036854775808 < d ∧ d < 9223372036854775808 := by
      by_contra hc
      unfold toStringUs abs64 at h
      rw [if_neg hc] at h
      simp at h
    obtain ⟨s', hs', hr⟩ := C56_duration d hb.1 hb.2
    rw [h] at hs'
    obtain rfl := Option.some.inj hs'
    simpa using hr [] (by simp)
  have ht : ∀ (t ref : Int) s, toStringSMsUs t ref = some s → readTimestamp s = some (t - ref, []) := by
    intro t ref s h
    have hb : -9223372036854775808 < t - ref ∧ t - ref < 9223372036854775808 := by
      by_contra hc
      unfold toStringSMsUs abs64 at h
      rw [if_neg hc] at h
      simp at h
    obtain ⟨s', hs', hr⟩ := C56_timestamp t ref hb.1 hb.2
    rw [h] at hs'
    obtain rfl := Option.some.inj hs'
    simpa using hr []
  refine ⟨C56_duration, C56_timestamp, fun d d' s h h' => ?_, fun t t' ref s h h' => ?_⟩
  · have h1 := hd d s h
    rw [hd d' s h'] at h1
    exact (Prod.mk.inj (Option.some.inj h1)).1.symm
  · have h1 := ht t ref s h
    rw [ht t' ref s h'] at h1
    have := (Prod.mk.inj (Option.some.inj h1)).1
    omega

/-- The least duration, and the time that is 2^63 microseconds before the reference, have no magnitude. -/
theorem C56_text_violated :
    ¬ C56_full ∧ toStringUs (-9223372036854775808) = none ∧
      toStringSMsUs (-9223372036854775808) 0 = none := by
  refine ⟨fun h => ?_, by decide, by decide⟩
  obtain ⟨s, hs, _⟩ := h.1 (-9223372036854775808) (by decide) (by decide)
  exact absurd hs (by rw [show toStringUs (-9223372036854775808) = none by decide]; simp)

theorem dec_lt {n : Nat} (h : n < 10) : dec n = [digitChar n] := by rw [dec, dif_pos h]
theorem dec_ge {n : Nat} (h : ¬ n < 10) : dec n = dec (n / 10) ++ [digitChar (n % 10)] := by
  rw [dec, dif_neg h]

/-- Texts with all three units and a negative value; the reader of durations leaves the text of a time
alone. -/
theorem C56_nonvacuous :
    toStringUs 0 = some "0s".toList ∧ toStringUs (-1500) = some "-1500us".toList ∧
    toStringUs 20000 = some "20ms".toList ∧ toStringUs (-3000000) = some "-3s".toList ∧
    toStringSMsUs 1002003 0 = some "1s:2ms:3us".toList ∧
    toStringSMsUs 0 1002003 = some "-1s:2ms:3us".toList ∧
    readDuration "1s:2ms:3us ".toList = none := by
  have habs : ∀ (d : Int) n, d.natAbs = n → n < 9223372036854775808 → abs64 d = some n := by
    intro d n h1 h2
    unfold abs64
    rw [if_pos (by omega), h1]
  refine ⟨?_, ?_, ?_, ?_, ?_, ?_, by decide⟩
  · rw [toStringUs, habs 0 0 rfl (by decide)]; simp +decide [sign, dec_lt, dec_ge]
  · rw [toStringUs, habs _ 1500 rfl (by decide)]; simp +decide [sign, dec_lt, dec_ge]
  · rw [toStringUs, habs _ 20000 rfl (by decide)]; simp +decide [sign, dec_lt, dec_ge]
  · rw [toStringUs, habs _ 3000000 rfl (by decide)]; simp +decide [sign, dec_lt, dec_ge]
  · rw [toStringSMsUs, habs _ 1002003 rfl (by decide)]; simp +decide [sign, dec_lt, dec_ge]
  · rw [toStringSMsUs, habs _ 1002003 rfl (by decide)]; simp +decide [sign, dec_lt, dec_ge]

end Verif.TimeText
