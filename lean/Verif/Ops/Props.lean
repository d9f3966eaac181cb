import Verif.Ops.Model
/-!
# Property C53
-/
namespace Verif.Ops
open Verif.F32

/-! ## Times -/

/-- Adding a duration and subtracting it again; and the other way round. -/
theorem C53_add_sub (E : Env) (t d : Int) (ht : fits t = true) (v : Val) (h : add E (.time t) (.dur d) = .ok v) :
    sub E v (.dur d) = .ok (.time t) := by
  simp only [add, time] at h
  split at h
  · simp only [Res.ok.injEq] at h
    subst h
    simp only [sub, time]
    rw [show t + d - d = t by omega, if_pos ht]
  · cases h

theorem C53_sub_add (E : Env) (t d : Int) (ht : fits t = true) (v : Val) (h : sub E (.time t) (.dur d) = .ok v) :
    add E v (.dur d) = .ok (.time t) ∧ add E (.dur d) v = .ok (.time t) := by
  simp only [sub, time] at h
  split at h
  · simp only [Res.ok.injEq] at h
    subst h
    simp only [add, time]
    rw [show t - d + d = t by omega, show d + (t - d) = t by omega, if_pos ht]
    exact ⟨rfl, rfl⟩
  · cases h

/-- The difference of two timestamps added to one gives the other. -/
theorem C53_difference (E : Env) (a b : Int) (hb : fits b = true) (v : Val) (h : sub E (.time b) (.time a) = .ok v) :
    add E (.time a) v = .ok (.time b) ∧ add E v (.time a) = .ok (.time b) ∧
      ∀ w, dis E (.time b) (.time a) = .ok w → w = v ∨ sub E (.time a) (.time b) = .ok w := by
  simp only [sub, dur] at h
  split at h
  · rename_i hf
    simp only [Res.ok.injEq] at h
    subst h
    refine ⟨?_, ?_, ?_⟩
    · simp only [add, time]; rw [show a + (b - a) = b by omega, if_pos hb]
    · simp only [add, time]; rw [show b - a + a = b by omega, if_pos hb]
    · intro w hw
      simp only [dis, dur] at hw
      rw [if_pos hf] at hw
      split at hw
      · rename_i hf2
        simp only [Res.ok.injEq] at hw
        subst hw
        by_cases hs : 0 ≤ b - a
        · left; rw [abs_of_nonneg hs]
        · right
          have e : |b - a| = a - b := by rw [abs_of_neg (by omega)]; omega
          rw [e] at hf2 ⊢
          simp only [sub, dur]; rw [if_pos hf2]
      · cases hw
  · cases h

/-- Durations: the same. -/
theorem C53_durations (E : Env) (a b : Int) (ha : fits a = true) (v : Val) (h : add E (.dur a) (.dur b) = .ok v) :
    sub E v (.dur b) = .ok (.dur a) ∧ add E (.dur b) (.dur a) = .ok v := by
  simp only [add, dur] at h
  split at h
  · rename_i hf
    simp only [Res.ok.injEq] at h
    subst h
    refine ⟨?_, ?_⟩
    · simp only [sub, dur]; rw [show a + b - b = a by omega, if_pos ha]
    · simp only [add, dur]; rw [Int.add_comm b a, if_pos hf]
  · cases h

/-- A whole number added to or subtracted from a time counts as microseconds. -/
theorem C53_numbers (E : Env) (n x : Int) (hn : fits n = true) :
    add E (.time x) (.num (.fin n)) = add E (.time x) (.dur n) ∧
    add E (.num (.fin n)) (.time x) = add E (.time x) (.dur n) ∧
    add E (.dur x) (.num (.fin n)) = add E (.dur x) (.dur n) ∧
    add E (.num (.fin n)) (.dur x) = add E (.dur x) (.dur n) ∧
    sub E (.time x) (.num (.fin n)) = sub E (.time x) (.dur n) ∧
    sub E (.dur x) (.num (.fin n)) = sub E (.dur x) (.dur n) := by
  have ht : trunc (n : Rat) = n := by
    unfold trunc; split <;> simp
  simp [add, sub, withInt, toInt, ht, hn]

/-- A duration multiplied by a number other than 0 and divided by it is the duration, in exact arithmetic,
if the product is whole; the same the other way round. -/
theorem C53_scaling (d e : Int) (k : Rat) (hk : k ≠ 0) (hd : fits d = true) (he : fits e = true)
    (h : (d : Rat) * k = e) :
    mul exactEnv (.dur d) (.num (.fin k)) = .ok (.dur e) ∧ div exactEnv (.dur e) (.num (.fin k)) = .ok (.dur d) := by
  have ht : ∀ n : Int, trunc (n : Rat) = n := by
    intro n; unfold trunc; split <;> simp
  have h' : (e : Rat) / k = d := by rw [← h]; field_simp
  simp [mul, div, hk, exactEnv, withInt, toInt, dur, h, h', ht, hd, he]

/-! ## Comparisons -/

/-- Values that can be compared: two numbers (not NaN), two timestamps, two durations. -/
def Comparable : Val → Val → Prop
  | .num a, .num b => a ≠ .nan ∧ b ≠ .nan
  | .time _, .time _ => True
  | .dur _, .dur _ => True
  | _, _ => False

/-- The four comparisons of comparable values answer; they are consistent with each other, and `lse` is
a total order. -/
theorem C53_order (a b : Val) (h : Comparable a b) :
    ∃ lt le gt ge : Bool, lsr a b = .bool lt ∧ lse a b = .bool le ∧ gtr a b = .bool gt ∧ gte a b = .bool ge ∧
      gt = !le ∧ ge = !lt ∧ (le = true ∨ ge = true) ∧ (le = true ∧ ge = true ↔ a = b) ∧ (lt = true ↔ le = true ∧ a ≠ b) ∧
      lsr b a = .bool gt ∧ lse b a = .bool ge := by
  cases a with
  | num x =>
    cases b with
    | num y =>
      refine ⟨_, _, _, _, rfl, rfl, rfl, rfl, ?_⟩
      obtain ⟨h1, h2⟩ := h
      simp only [lsr, lse, Val.num.injEq]
      cases x <;> cases y <;> simp only [flt, fle, Num.fin.injEq] <;> simp_all
      rename_i p q
      refine ⟨?_, ?_, le_total p q, ?_, ?_⟩
      · rcases lt_or_ge q p with h | h <;> simp [h, not_lt.mpr, not_le.mpr]
      · rcases lt_or_ge p q with h | h <;> simp [h, not_lt.mpr, not_le.mpr]
      · constructor
        · rintro ⟨a, b⟩; exact le_antisymm a b
        · rintro rfl; simp
      · rw [lt_iff_le_and_ne]
    | _ => exact h.elim
  | time x =>
    cases b with
    | time y =>
      refine ⟨_, _, _, _, rfl, rfl, rfl, rfl, ?_⟩
      simp only [lsr, lse, ne_eq, Val.time.injEq, decide_eq_true_eq]
      refine ⟨?_, ?_, by omega, by omega, by omega, by simp, by simp⟩
      · by_cases h : x ≤ y <;> simp [h] <;> omega
      · by_cases h : x < y <;> simp [h] <;> omega
    | _ => exact h.elim
  | dur x =>
    cases b with
    | dur y =>
      refine ⟨_, _, _, _, rfl, rfl, rfl, rfl, ?_⟩
      simp only [lsr, lse, ne_eq, Val.dur.injEq, decide_eq_true_eq]
      refine ⟨?_, ?_, by omega, by omega, by omega, by simp, by simp⟩
      · by_cases h : x ≤ y <;> simp [h] <;> omega
      · by_cases h : x < y <;> simp [h] <;> omega
    | _ => exact h.elim
  | other => exact h.elim

theorem C53_order_trans (a b c : Val) (h1 : lse a b = .bool true) (h2 : lse b c = .bool true) :
    lse a c = .bool true := by
  cases a <;> cases b <;> cases c <;> simp only [lse, Res.bool.injEq, decide_eq_true_eq, reduceCtorEq] at h1 h2 ⊢
  · rename_i x y z
    cases x <;> cases y <;> cases z <;> simp only [fle, decide_eq_true_eq, Bool.false_eq_true] at h1 h2 ⊢
    exact le_trans h1 h2
  · omega
  · omega

/-- Other pairs of values are refused by all four. -/
theorem C53_incomparable (a b : Val) (h : ¬ Comparable a b) (hn : ∀ x y, a = .num x → b ≠ .num y) :
    lsr a b = .fail ∧ lse a b = .fail ∧ gtr a b = .fail ∧ gte a b = .fail := by
  cases a <;> cases b <;> simp_all [Comparable, lsr, lse, gtr, gte]

/-! ## Infinities -/

/-- The IEEE result, stored. -/
def Ieee (E : Env) (f : Arith → Num → Num → Num) (op : Env → Val → Val → Res) (a b : Num) : Prop :=
  op E (.num a) (.num b) = .ok (.num (stored E.A (f E.A a b)))

/-- The property. -/
def C53_full : Prop :=
  (∀ E t d v, fits t = true → add E (.time t) (.dur d) = .ok v → sub E v (.dur d) = .ok (.time t)) ∧
  (∀ E a b v, fits b = true → sub E (.time b) (.time a) = .ok v → add E (.time a) v = .ok (.time b)) ∧
  (∀ a b, Comparable a b → ∃ lt le gt ge : Bool, lsr a b = .bool lt ∧ lse a b = .bool le ∧ gtr a b = .bool gt ∧
    gte a b = .bool ge ∧ gt = !le ∧ ge = !lt ∧ (le = true ∨ ge = true) ∧ (le = true ∧ ge = true ↔ a = b)) ∧
  (∀ (E : Env) (a b : Num),
    Ieee E fadd add a b ∧ Ieee E fsub sub a b ∧ Ieee E fmul mul a b ∧ (b ≠ .fin 0 → Ieee E fdiv div a b))

/-- `add` gives the IEEE result except for +inf and -inf or NaN. -/
theorem C53_add_ieee (E : Env) (a b : Num) :
    Ieee E fadd add a b ↔ ¬ (a = .inf ∧ (b = .ninf ∨ b = .nan) ∨ b = .inf ∧ (a = .ninf ∨ a = .nan)) := by
  unfold Ieee
  cases a <;> cases b <;> simp [add, fadd, number, stored]

/-- `sub` gives the IEEE result unless +inf is subtracted, or NaN from +inf. -/
theorem C53_sub_ieee (E : Env) (a b : Num) :
    Ieee E fsub sub a b ↔ ¬ (b = .inf ∨ a = .inf ∧ b = .nan) := by
  unfold Ieee
  cases a <;> cases b <;> simp [sub, fsub, fadd, neg, number, stored]

/-- `mul` gives the IEEE result unless +inf is multiplied by a number that is not positive. -/
theorem C53_mul_ieee (E : Env) (a b : Num) :
    Ieee E fmul mul a b ↔ ¬ (a = .inf ∧ fle b (.fin 0) = true ∨ b = .inf ∧ fle a (.fin 0) = true) := by
  unfold Ieee
  cases a <;> cases b <;> simp [mul, fmul, number, stored, flt, fle, neg]
  · rename_i q
    by_cases h1 : 0 < q
    · simp [h1, sign, stored]
    · simp [h1, not_lt.mp h1, sign]
      by_cases h2 : q < 0 <;> simp [h2]
  · rename_i q
    by_cases h1 : 0 < q
    · simp [h1, sign, stored]
    · simp [h1, not_lt.mp h1, sign]
      by_cases h2 : q < 0 <;> simp [h2]

/-- `div` by a number other than 0 gives the IEEE result unless +inf is divided by a negative number or
an infinity, or a positive number is divided by +inf, or -inf is. -/
theorem C53_div_ieee (E : Env) (a b : Num) (hb : b ≠ .fin 0) :
    Ieee E fdiv div a b ↔
      ¬ (a = .inf ∧ (fle b (.fin 0) = true ∨ b = .inf) ∨ b = .inf ∧ (flt (.fin 0) a = true ∨ a = .ninf)) := by
  unfold Ieee
  cases a <;> cases b <;> simp [div, fdiv, number, stored, flt, fle] at hb ⊢
  case inf.fin q =>
    rw [if_neg hb]
    by_cases h1 : 0 < q
    · simp [h1, not_lt.mpr h1.le]
    · have : q < 0 := lt_of_le_of_ne (not_lt.mp h1) hb
      simp [h1, this, this.le]
  all_goals simp [hb]

/-- 1 / +inf is +inf, 5 - (+inf) is 0, +inf - (+inf) and +inf + (-inf) are +inf, (+inf) * (-1) is 0. -/
theorem C53_infinities_violated : ¬ C53_full ∧
    div exactEnv (.num (.fin 1)) (.num .inf) = .ok (.num .inf) ∧
    sub exactEnv (.num (.fin 5)) (.num .inf) = .ok (.num (.fin 0)) ∧
    sub exactEnv (.num .inf) (.num .inf) = .ok (.num .inf) ∧
    add exactEnv (.num .inf) (.num .ninf) = .ok (.num .inf) ∧
    mul exactEnv (.num .inf) (.num (.fin (-1))) = .ok (.num (.fin 0)) := by
  have h : div exactEnv (.num (.fin 1)) (.num .inf) = .ok (.num .inf) := by simp [div, flt]
  refine ⟨fun hf => ?_, h, by simp [sub, number, stored, exactEnv, exact], by simp [sub], by simp [add], ?_⟩
  · have := (hf.2.2.2 exactEnv (.fin 1) .inf).2.2.2 (by simp)
    unfold Ieee at this
    rw [h] at this
    simp [fdiv, stored] at this
  · simp [mul, flt, fle, number, stored, exactEnv, exact]

/-- The theorems on times apply: two days after the epoch and 1.5 hours. -/
theorem C53_nonvacuous : fits 172800000000 = true ∧
    add exactEnv (.time 172800000000) (.dur 5400000000) = .ok (.time 178200000000) ∧
    sub exactEnv (.time 178200000000) (.time 172800000000) = .ok (.dur 5400000000) ∧
    Comparable (.num (.fin 2)) (.num .inf) ∧ ((3 : Int) : Rat) * (5 / 3) = (5 : Int) := by
  refine ⟨by decide, ?_, ?_, by simp [Comparable], by norm_num⟩ <;> simp [add, sub, time, dur, fits]

end Verif.Ops
