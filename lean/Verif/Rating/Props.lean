import Verif.Rating.Model
import Mathlib.Data.List.Induction
/-!
# C45: the success rate of a model

The specification counts outcomes: `counted` says which reports are outcomes to be counted (certain
evidence; failures only when they are to be rated; the secondary controller is told about successes
only), `succ` which of them are successes.
-/
namespace Verif.Rating
open Verif.F32

/-! ## Specification -/

/-- Reports that count as an outcome. -/
def counted : Ev → Bool
  | .primary s c rf => decide (c = 1) && (s || rf)
  | .secondary s => s
/-- Counted successes. -/
def isSucc : Ev → Bool
  | .primary s c _ => decide (c = 1) && s
  | .secondary s => s
/-- Counted failures. -/
def isFail (e : Ev) : Bool := counted e && !isSucc e
/-- Counted successes of the primary controller, which may promote. -/
def primSucc : Ev → Bool
  | .primary s c _ => decide (c = 1) && s
  | .secondary _ => false

def outcomes (es : List Ev) : Nat := (es.filter counted).length
def successes (es : List Ev) : Nat := (es.filter isSucc).length

/-- The rate a model ought to have after the history `es` when it started with `k` successes among `n`
outcomes. -/
def trueRate (k n : Nat) (es : List Ev) : Rat := ((k + successes es : Nat) : Rat) / ((n + outcomes es : Nat) : Rat)

/-- No strength promotion takes place during the history: at no success of the primary both the true rate
and the true count reach their thresholds. -/
def NoPromotion (t : Thr) (k n : Nat) (es : List Ev) : Prop :=
  ∀ pre e post, es = pre ++ e :: post → primSucc e = true →
    ¬ (t.srThr ≤ trueRate k n (pre ++ [e]) ∧ t.cntThr ≤ n + outcomes (pre ++ [e]))

/-- No failure lets the true rate drop to the activation threshold. -/
def StaysAbove (t : Thr) (k n : Nat) (es : List Ev) : Prop :=
  ∀ pre e post, es = pre ++ e :: post → isFail e = true → t.actThr < trueRate k n (pre ++ [e])

/-- The model's record says `k` successes among `n` outcomes. -/
def Records (m : Mdl) (k n : Nat) : Prop := m.cnt = n ∧ m.sr = (k : Rat) / (n : Rat)

/-- C45 in full, in the arithmetic `A`. -/
def C45_full (A : Arith) : Prop := ∀ (t : Thr) (m : Mdl) (k n : Nat) (es : List Ev),
  m.dead = false → 0 < n → k ≤ n → Records m k n → NoPromotion t k n es →
  (run A t m es).dead = false →
    (run A t m es).sr = trueRate k n es ∧ 0 ≤ (run A t m es).sr ∧ (run A t m es).sr ≤ 1

/-! ## The rate -/

variable {t : Thr} {m : Mdl}

theorem outcomes_append (a b : List Ev) : outcomes (a ++ b) = outcomes a + outcomes b := by
  simp [outcomes]
theorem successes_append (a b : List Ev) : successes (a ++ b) = successes a + successes b := by
  simp [successes]

theorem succ_le_outcomes (es : List Ev) : successes es ≤ outcomes es := by
  unfold successes outcomes
  induction es with
  | nil => simp
  | cons e es ih =>
    have : isSucc e = true → counted e = true := by
      cases e <;> simp [isSucc, counted] <;> intros <;> simp_all
    by_cases h : isSucc e = true
    · simp [List.filter_cons, h, this h]; exact ih
    · by_cases h2 : counted e = true
      · simp [List.filter_cons, h, h2]; omega
      · simp [List.filter_cons, h, h2]; exact ih

theorem snoc_split {α : Type} {pre post es : List α} {x e : α} (h : es = pre ++ x :: post) :
    es ++ [e] = pre ++ x :: (post ++ [e]) := by rw [h]; simp

theorem NoPromotion.init {k n es e} (h : NoPromotion t k n (es ++ [e])) : NoPromotion t k n es :=
  fun pre x post he hx => h pre x (post ++ [e]) (snoc_split he) hx
theorem StaysAbove.init {k n es e} (h : StaysAbove t k n (es ++ [e])) : StaysAbove t k n es :=
  fun pre x post he hx => h pre x (post ++ [e]) (snoc_split he) hx

/-- The record is exact, and the model is not deleted, as long as no promotion takes place and the rate
stays above the threshold. -/
theorem record_exact (k n : Nat) (h0 : m.dead = false) (hn : 0 < n) (hk : k ≤ n) (hm : Records m k n)
    (es : List Ev) (hp : NoPromotion t k n es) (ha : StaysAbove t k n es) :
    (run exact t m es).dead = false ∧
      Records (run exact t m es) (k + successes es) (n + outcomes es) := by
  induction es using List.reverseRecOn with
  | nil => exact ⟨h0, hm⟩
  | append_singleton es e ih =>
    obtain ⟨hd, hc, hs⟩ := ih hp.init ha.init
    have hp' := hp es e [] rfl
    have ha' := ha es e [] rfl
    rw [run, List.foldl_append]
    change (step exact t (run exact t m es) e).dead = false ∧ Records (step exact t (run exact t m es) e) _ _
    generalize run exact t m es = m' at hd hc hs
    have hN : 0 < n + outcomes es := by omega
    have hN' : ((n + outcomes es : Nat) : Rat) ≠ 0 := by exact_mod_cast hN.ne'
    have hmul : m'.sr * m'.cnt = ((k + successes es : Nat) : Rat) := by
      rw [hc, hs, div_mul_cancel₀ _ hN']
    have hsame : counted e = false → isSucc e = false := by
      cases e <;> simp [isSucc, counted] <;> intros <;> simp_all
    -- nothing is counted
    have keep : counted e = false → Records m' (k + successes (es ++ [e])) (n + outcomes (es ++ [e])) := by
      intro h
      rw [outcomes_append, successes_append]
      simp only [outcomes, successes, List.filter_cons, h, hsame h, List.filter_nil]
      exact ⟨hc, hs⟩
    -- a success
    have good : isSucc e = true → counted e = true →
        (m'.cnt + 1 = ((n + outcomes (es ++ [e]) : Nat) : Rat) ∧
         (m'.sr * m'.cnt + 1) / (m'.cnt + 1) = trueRate k n (es ++ [e])) := by
      intro h1 h2
      have e1 : outcomes (es ++ [e]) = outcomes es + 1 := by
        rw [outcomes_append]; simp [outcomes, h2]
      have e2 : successes (es ++ [e]) = successes es + 1 := by
        rw [successes_append]; simp [successes, h1]
      refine ⟨by rw [e1, hc]; push_cast; ring, ?_⟩
      rw [hmul, hc, trueRate, e1, e2]; push_cast; ring
    cases e with
    | primary s c rf =>
      by_cases h1 : c = 1
      · cases s with
        | true =>
          obtain ⟨g1, g2⟩ := good (by simp [isSucc, h1]) (by simp [counted, h1])
          have hq := hp' (by simp [primSucc, h1])
          have hcond : ¬ (t.srThr ≤ (m'.sr * m'.cnt + 1) / (m'.cnt + 1) ∧ (t.cntThr : Rat) ≤ m'.cnt + 1) := by
            rw [g1] at g2 ⊢; rw [g2]
            intro ⟨q1, q2⟩; exact hq ⟨q1, by exact_mod_cast q2⟩
          simp only [step, h1, if_true, rate, hd, exact, Bool.false_eq_true, if_false]
          rw [if_neg hcond]
          exact ⟨rfl, by rw [h1] at g1; exact g1, by rw [h1] at g2; exact g2⟩
        | false =>
          cases rf with
          | true =>
            have hc1 : counted (.primary false c true) = true := by simp [counted, h1]
            have hs1 : isSucc (.primary false c true) = false := by simp [isSucc]
            have e1 : outcomes (es ++ [.primary false c true]) = outcomes es + 1 := by
              rw [outcomes_append]; simp [outcomes, hc1]
            have e2 : successes (es ++ [.primary false c true]) = successes es := by
              rw [successes_append]; simp [successes, hs1]
            have g : m'.sr * m'.cnt / (m'.cnt + 1) = trueRate k n (es ++ [.primary false c true]) := by
              rw [hmul, hc, trueRate, e1, e2]; push_cast; ring
            have hgt := ha' (by simp [isFail, hc1, hs1])
            rw [← g] at hgt
            simp only [step, h1, if_true, rate, hd, exact, Bool.false_eq_true, if_false]
            rw [if_pos hgt]
            rw [h1] at e1 g
            refine ⟨rfl, ?_, ?_⟩
            · rw [e1]; simp only [id]; rw [hc]; push_cast; ring
            · exact g
          | false =>
            simp only [step, h1, if_true, Bool.false_eq_true, if_false]
            exact ⟨hd, by have := keep (by simp [counted]); rw [h1] at this; exact this⟩
      · simp only [step, h1, if_false]
        exact ⟨hd, keep (by simp [counted, h1])⟩
    | secondary s =>
      cases s with
      | true =>
        obtain ⟨g1, g2⟩ := good (by simp [isSucc]) (by simp [counted])
        simp only [step, if_true, rateSec, hd, exact, Bool.false_eq_true, if_false]
        refine ⟨?_, ?_⟩
        · split
          · rfl
          · split <;> rfl
        · refine ⟨?_, ?_⟩
          · rw [← g1]; split
            · rfl
            · split <;> rfl
          · refine Eq.trans ?_ g2; split
            · rfl
            · split <;> rfl
      | false =>
        simp only [step, Bool.false_eq_true, if_false]
        exact ⟨hd, keep (by simp [counted])⟩

theorem C45_rate_partial (k n : Nat) (h0 : m.dead = false) (hn : 0 < n) (hk : k ≤ n) (hm : Records m k n)
    (es : List Ev) (hp : NoPromotion t k n es) (ha : StaysAbove t k n es) :
    (run exact t m es).dead = false ∧ (run exact t m es).cnt = ((n + outcomes es : Nat) : Rat) ∧
      (run exact t m es).sr = trueRate k n es ∧ 0 ≤ (run exact t m es).sr ∧ (run exact t m es).sr ≤ 1 := by
  obtain ⟨h1, h2, h3⟩ := record_exact k n h0 hn hk hm es hp ha
  refine ⟨h1, h2, h3, ?_, ?_⟩
  · rw [h3]; positivity
  · rw [h3]
    have := succ_le_outcomes es
    apply div_le_one_of_le₀ _ (by positivity)
    exact_mod_cast (by omega : k + successes es ≤ n + outcomes es)

/-- C45 fails, in any arithmetic that computes 1/2 and 1 correctly: the failure that lets a strong
model's rate drop to the threshold is not recorded. -/
theorem C45_phase_out_violated : ¬ C45_full exact ∧
    (let t : Thr := ⟨9/10, 6, 1/2, 0⟩
     let m : Mdl := ⟨1, 1, 1, 1, 1, 0, false⟩
     let m' := run exact t m [.primary false 1 true]
     m'.sr = 1 ∧ m'.cnt = 1 ∧ m'.act = 0 ∧ m'.secAct = 1/2 ∧ trueRate 1 1 [.primary false 1 true] = 1/2) := by
  refine ⟨fun h => ?_, ?_⟩
  · have := h ⟨9/10, 6, 1/2, 0⟩ ⟨1, 1, 1, 1, 1, 0, false⟩ 1 1 [.primary false 1 true] rfl (by omega) (by omega)
      ⟨by norm_num, by norm_num⟩ (by
        intro pre e post he hs
        rcases pre with _ | ⟨a, pre⟩
        · injection he with h1 _; subst h1; simp [primSucc] at hs
        · simp at he) (by norm_num [run, step, rate, exact])
    norm_num [run, step, rate, exact, trueRate, successes, outcomes, counted, isSucc] at this
  · norm_num [run, step, rate, exact, trueRate, successes, outcomes, counted, isSucc]

/-! ## Bounds and monotonicity -/

/-- What the bounds need of the arithmetic. -/
structure Sane (A : Arith) : Prop where
  add_one : ∀ a b, 0 ≤ a → a ≤ b → 1 ≤ A.add a 1 ∧ A.add a 1 ≤ A.add b 1
  mul_le : ∀ a b, 0 ≤ a → a ≤ 1 → 0 ≤ b → 0 ≤ A.mul a b ∧ A.mul a b ≤ max b (A.mul 1 b)
  le_add : ∀ b, 0 ≤ b → A.store b = b → b ≤ A.add b 1
  keep : ∀ b, 0 ≤ b → A.store b = b → A.mul 1 b = b
  stored : ∀ b, 0 ≤ b → A.store (A.store b) = A.store b
  div_le : ∀ a b, 0 ≤ a → a ≤ b → 0 < b → 0 ≤ A.div a b ∧ A.div a b ≤ 1
  div_pos : ∀ a b, 0 < a → 0 < b → 0 < A.div a b
  inv : ∀ r, 0 < r → r ≤ 1 → 1 ≤ A.div 1 r
  store : ∀ a, 0 ≤ a → 0 ≤ A.store a ∧ (a ≤ 1 → A.store a ≤ 1) ∧ (1 ≤ a → 1 ≤ A.store a)

theorem sane_exact : Sane exact where
  add_one a b h1 h2 := ⟨by simp only [exact]; linarith, by simp only [exact]; linarith⟩
  mul_le a b h1 h2 h3 := by
    refine ⟨mul_nonneg h1 h3, le_max_of_le_left ?_⟩
    simp only [exact]; nlinarith
  le_add b _ _ := by simp only [exact]; linarith
  keep b _ _ := by simp [exact]
  stored b _ := rfl
  div_le a b h1 h2 h3 := ⟨div_nonneg h1 h3.le, (div_le_one h3).2 h2⟩
  div_pos a b h1 h2 := div_pos h1 h2
  inv r h1 h2 := (one_le_div h1).2 h2
  store a h := ⟨h, id, id⟩

theorem store_store {q : Rat} (h : 0 ≤ q) : F32.store (F32.store q) = F32.store q := by
  rcases h.lt_or_eq with h | h
  · have hb := store_bounds h.le
    have hs := store_between h
    have hp : 0 < F32.store q := lt_of_lt_of_le (zpow_pos (by norm_num) _) hs
    have hl : Int.log 2 |F32.store q| = Int.log 2 |q| := by
      have h1 : Int.log 2 |F32.store q| ≤ Int.log 2 |q| := by
        rw [abs_of_pos hp, abs_of_pos h]; exact Int.log_mono_right hp hb.2
      have h2 : Int.log 2 |q| ≤ Int.log 2 |F32.store q| := by
        rw [abs_of_pos hp]
        exact (Int.zpow_le_iff_le_log (b := 2) (by norm_num) hp).1 (by exact_mod_cast hs)
      omega
    have hu : ulp (F32.store q) = ulp q := by unfold ulp; rw [hl]
    have hp2 : 0 < 2 * ulp q := mul_pos two_pos (ulp_pos q)
    rw [store_eq hp, hu]
    conv_lhs => rw [store_eq h]
    rw [mul_div_assoc, div_self hp2.ne', mul_one, Int.floor_intCast, store_eq h]
  · rw [← h, store_zero, store_zero]

theorem sane_single : Sane single where
  add_one a b h1 h2 := by
    refine ⟨?_, fl_mono (by linarith) (by linarith)⟩
    have := fl_mono (x := 1) (y := a + 1) (by norm_num) (by linarith)
    rwa [fl_one] at this
  mul_le a b h1 h2 h3 := by
    refine ⟨fl_nonneg (mul_nonneg h1 h3), le_max_of_le_right ?_⟩
    exact fl_mono (mul_nonneg h1 h3) (by nlinarith)
  le_add b h hs := by
    have := fl_mono h (by linarith : b ≤ b + 1)
    rwa [fl_of_store h hs] at this
  keep b h hs := by simp only [single, one_mul]; exact fl_of_store h hs
  stored b h := store_store h
  div_le a b h1 h2 h3 := by
    refine ⟨fl_nonneg (div_nonneg h1 h3.le), ?_⟩
    rw [← fl_one]; exact fl_mono (div_nonneg h1 h3.le) ((div_le_one h3).2 h2)
  div_pos a b h1 h2 := fl_pos (div_pos h1 h2)
  inv r h1 h2 := by
    have := fl_mono (x := 1) (y := 1 / r) (by norm_num) ((one_le_div h1).2 h2)
    rwa [fl_one] at this
  store a h := by
    refine ⟨(store_bounds h).1, fun h1 => (store_bounds h).2.trans h1, fun h1 => ?_⟩
    rw [← store_one]; exact store_mono (by norm_num) h1

/-- The rate is between 0 and 1 and the count at least 1. -/
def Bounded (A : Arith) (m : Mdl) : Prop := 0 ≤ m.sr ∧ m.sr ≤ 1 ∧ 1 ≤ m.cnt ∧ A.store m.cnt = m.cnt

theorem trunc_ge_one {x : Rat} (h : 1 ≤ x) : (1 : Rat) ≤ (trunc x : Rat) := by
  unfold trunc; rw [if_pos (by linarith)]
  exact_mod_cast Int.le_floor.2 (by exact_mod_cast h)

theorem bounded_step {A : Arith} (hA : Sane A) {m : Mdl} (h : Bounded A m) (e : Ev) :
    Bounded A (step A t m e) := by
  obtain ⟨h1, h2, h3, h4⟩ := h
  have hc : 0 ≤ m.cnt := by linarith
  have hk := hA.mul_le m.sr m.cnt h1 h2 hc
  rw [hA.keep _ hc h4, max_self] at hk
  have he := hA.add_one m.cnt m.cnt hc le_rfl
  have hks := hA.add_one _ _ hk.1 hk.2
  have hkadd : m.cnt ≤ m.cnt := le_rfl
  -- a new pair of a count and a rate
  have new : ∀ r, 0 ≤ r → r ≤ 1 → Bounded A { m with dsr := m.sr, cnt := A.store (A.add m.cnt 1), sr := A.store r } := by
    intro r r0 r1
    have e0 : 0 ≤ A.add m.cnt 1 := by linarith [he.1]
    exact ⟨(hA.store r r0).1, (hA.store r r0).2.1 r1, (hA.store _ e0).2.2 he.1, hA.stored _ e0⟩
  have hgood := hA.div_le (A.add (A.mul m.sr m.cnt) 1) (A.add m.cnt 1) (by linarith) hks.2 (by linarith)
  have hpos := hA.div_pos (A.add (A.mul m.sr m.cnt) 1) (A.add m.cnt 1) (by linarith) (by linarith)
  have hle := hk.2.trans (hA.le_add _ hc h4)
  have hb := hA.div_le (A.mul m.sr m.cnt) (A.add m.cnt 1) hk.1 hle (by linarith)
  have rt : ∀ s, Bounded A (rate A t m s) := by
    intro s
    unfold rate
    by_cases hd : m.dead = true
    · rw [if_pos hd]; exact ⟨h1, h2, h3, h4⟩
    · rw [if_neg hd]; simp only
      cases s with
      | true =>
        rw [if_pos rfl]
        split
        · have hi := trunc_ge_one (hA.inv _ hpos hgood.2)
          have i0 : (0 : Rat) ≤ trunc (A.div 1 (A.div (A.add (A.mul m.sr m.cnt) 1) (A.add m.cnt 1))) := by linarith
          exact ⟨(hA.store 1 (by norm_num)).1, (hA.store 1 (by norm_num)).2.1 le_rfl, (hA.store _ i0).2.2 hi,
            hA.stored _ i0⟩
        · exact new _ hgood.1 hgood.2
      | false =>
        rw [if_neg (by simp)]
        split
        · exact new _ hb.1 hb.2
        · split
          · exact ⟨h1, h2, h3, h4⟩
          · exact ⟨h1, h2, h3, h4⟩
  have rs : Bounded A (rateSec A t m) := by
    unfold rateSec
    by_cases hd : m.dead = true
    · rw [if_pos hd]; exact ⟨h1, h2, h3, h4⟩
    · rw [if_neg hd]; simp only
      have := new _ hgood.1 hgood.2
      split
      · exact this
      · split
        · exact this
        · exact this
  cases e with
  | primary s c rf =>
    simp only [step]
    split
    · split
      · exact rt true
      · split
        · exact rt false
        · exact ⟨h1, h2, h3, h4⟩
    · exact ⟨h1, h2, h3, h4⟩
  | secondary s =>
    simp only [step]
    split
    · exact rs
    · exact ⟨h1, h2, h3, h4⟩

theorem bounded_run {A : Arith} (hA : Sane A) (es : List Ev) {m : Mdl} (h : Bounded A m) :
    Bounded A (run A t m es) := by
  induction es generalizing m with
  | nil => exact h
  | cons e es ih => exact ih (bounded_step hA h e)

/-- The recorded rate stays in [0,1] through every history, promotions, phase-outs and rounding
included, for a model that starts with a count that is 1 (pattern_extractor.cpp:494-497) or any other
storable number that is at least 1. -/
theorem C45_bounds (m : Mdl) (h0 : 0 ≤ m.sr) (h1 : m.sr ≤ 1) (hc : 1 ≤ m.cnt)
    (hs : F32.store m.cnt = m.cnt) (es : List Ev) :
    (0 ≤ (run single t m es).sr ∧ (run single t m es).sr ≤ 1) ∧
    (0 ≤ (run exact t m es).sr ∧ (run exact t m es).sr ≤ 1) := by
  have a := bounded_run (t := t) sane_single es (m := m) ⟨h0, h1, hc, hs⟩
  have b := bounded_run (t := t) sane_exact es (m := m) ⟨h0, h1, hc, rfl⟩
  exact ⟨⟨a.1, a.2.1⟩, b.1, b.2.1⟩

/-! ## A success never lowers the rate, a failure never raises it -/

/-- In exact arithmetic. -/
theorem C45_monotone (m : Mdl) (h0 : 0 ≤ m.sr) (h1 : m.sr ≤ 1) (hc : 1 ≤ m.cnt) (e : Ev) :
    (isSucc e = true → m.sr ≤ (step exact t m e).sr) ∧
    (isFail e = true → (step exact t m e).sr ≤ m.sr) ∧
    (counted e = false → step exact t m e = m) := by
  have hp : 0 < m.cnt + 1 := by linarith
  have up : m.sr ≤ (m.sr * m.cnt + 1) / (m.cnt + 1) := by
    rw [le_div_iff₀ hp]; nlinarith
  have down : m.sr * m.cnt / (m.cnt + 1) ≤ m.sr := by
    rw [div_le_iff₀ hp]; nlinarith
  refine ⟨fun h => ?_, fun h => ?_, fun h => ?_⟩
  · cases e with
    | primary s c rf =>
      simp only [isSucc, Bool.and_eq_true, decide_eq_true_eq] at h
      simp only [step, h.1, h.2, if_true, rate]
      split
      · exact le_rfl
      · split
        · simpa [exact] using h1
        · exact up
    | secondary s =>
      simp only [isSucc] at h
      simp only [step, h, if_true, rateSec]
      split
      · exact le_rfl
      · split
        · exact up
        · split
          · exact up
          · exact up
  · cases e with
    | primary s c rf =>
      simp only [isFail, isSucc, counted] at h
      cases s <;> simp at h
      simp only [step, h.1, h.2, if_true, rate, Bool.false_eq_true, if_false]
      split
      · exact le_rfl
      · split
        · exact down
        · split <;> exact le_rfl
    | secondary s => cases s <;> simp [isFail, isSucc, counted] at h
  · cases e with
    | primary s c rf =>
      by_cases hcf : c = 1
      · simp [counted, hcf] at h; simp [step, h]
      · simp [step, hcf]
    | secondary s => simp [counted] at h; simp [step, h]

/-- In single precision a failure never raises the rate (counts below 2^24; a model read back from its
code has a storable rate). -/
theorem C45_failure_single (m : Mdl) (n : Nat) (hn : n + 1 < 2 ^ 24) (hc : m.cnt = n) (h0 : 0 ≤ m.sr)
    (hs : F32.store m.sr = m.sr) (e : Ev) (h : isFail e = true) : (step single t m e).sr ≤ m.sr := by
  have he : fl (m.cnt + 1) = m.cnt + 1 := by
    rw [hc]; exact_mod_cast fl_nat hn
  have hp : 0 < m.cnt + 1 := by rw [hc]; positivity
  have hcn : m.cnt ≤ 2 ^ 24 := by rw [hc]; exact_mod_cast (by omega : n ≤ 2 ^ 24)
  have hk0 : 0 ≤ m.sr * m.cnt := mul_nonneg h0 (by rw [hc]; positivity)
  have hk : fl (m.sr * m.cnt) ≤ m.sr * (m.cnt + 1) := by
    have h1 := (abs_le.1 (fl_err hk0)).2
    have h2 : m.sr * m.cnt / 2 ^ 24 ≤ m.sr := by
      rw [div_le_iff₀ (by norm_num)]; exact mul_le_mul_of_nonneg_left hcn h0
    linarith
  have down : F32.store (fl (fl (m.sr * m.cnt) / fl (m.cnt + 1))) ≤ m.sr := by
    rw [he]
    have h1 : fl (m.sr * m.cnt) / (m.cnt + 1) ≤ m.sr := (div_le_iff₀ hp).2 hk
    have h2 := fl_mono (div_nonneg (fl_nonneg hk0) hp.le) h1
    rw [fl_of_store h0 hs] at h2
    exact (store_bounds (fl_nonneg (div_nonneg (fl_nonneg hk0) hp.le))).2.trans h2
  cases e with
  | primary s c rf =>
    simp only [isFail, isSucc, counted] at h
    cases s <;> simp at h
    simp only [step, h.1, h.2, if_true, rate, Bool.false_eq_true, if_false]
    split
    · exact le_rfl
    · split
      · exact down
      · split <;> exact le_rfl
  | secondary s => cases s <;> simp [isFail, isSucc, counted] at h

/-- In single precision a success does not lower the rate while the count is small in comparison with
the distance of the rate from 1 (with the default promotion threshold 0.9, for counts up to 800000). -/
theorem C45_success_single_partial (m : Mdl) (n : Nat) (hn : n + 1 < 2 ^ 24) (hc : m.cnt = n) (h0 : 0 ≤ m.sr)
    (h1 : m.sr ≤ 1) (hs : F32.store m.sr = m.sr) (hd : 2 * m.cnt + 2 ≤ (1 - m.sr) * 2 ^ 24)
    (e : Ev) (h : isSucc e = true) : m.sr ≤ (step single t m e).sr := by
  have he : fl (m.cnt + 1) = m.cnt + 1 := by
    rw [hc]; exact_mod_cast fl_nat hn
  have hc0 : 0 ≤ m.cnt := by rw [hc]; positivity
  have hp : 0 < m.cnt + 1 := by linarith
  have hk0 : 0 ≤ m.sr * m.cnt := mul_nonneg h0 hc0
  have hk1 : m.sr * m.cnt ≤ m.cnt := by nlinarith
  have hkc : fl (m.sr * m.cnt) ≤ m.cnt := by
    have := fl_mono hk0 hk1
    rwa [hc, fl_nat (by omega), ← hc] at this
  have hk : m.sr * (m.cnt + 1) ≤ fl (fl (m.sr * m.cnt) + 1) := by
    have e1 := (abs_le.1 (fl_err hk0)).1
    have e2 := (abs_le.1 (fl_err (by linarith [fl_nonneg hk0] : 0 ≤ fl (m.sr * m.cnt) + 1))).1
    have b1 : m.sr * m.cnt / 2 ^ 24 ≤ m.cnt / 2 ^ 24 := div_le_div_of_nonneg_right hk1 (by norm_num)
    have b2 : (fl (m.sr * m.cnt) + 1) / 2 ^ 24 ≤ (m.cnt + 1) / 2 ^ 24 :=
      div_le_div_of_nonneg_right (by linarith) (by norm_num)
    have b3 : m.cnt / 2 ^ 24 + (m.cnt + 1) / 2 ^ 24 ≤ 1 - m.sr := by
      rw [← add_div, div_le_iff₀ (by norm_num)]; linarith
    linarith
  have hf0 := fl_nonneg (by linarith [fl_nonneg hk0] : 0 ≤ fl (m.sr * m.cnt) + 1)
  have up : m.sr ≤ F32.store (fl (fl (fl (m.sr * m.cnt) + 1) / fl (m.cnt + 1))) := by
    rw [he]
    have q1 : m.sr ≤ fl (fl (m.sr * m.cnt) + 1) / (m.cnt + 1) := (le_div_iff₀ hp).2 hk
    have q2 := fl_mono h0 q1
    rw [fl_of_store h0 hs] at q2
    have q3 := store_mono h0 q2
    rwa [hs] at q3
  cases e with
  | primary s c rf =>
    simp only [isSucc, Bool.and_eq_true, decide_eq_true_eq] at h
    simp only [step, h.1, h.2, if_true, rate]
    split
    · exact le_rfl
    · split
      · simpa [single, store_one] using h1
      · exact up
  | secondary s =>
    simp only [isSucc] at h
    simp only [step, h, if_true, rateSec]
    split
    · exact le_rfl
    · split
      · exact up
      · split
        · exact up
        · exact up

/-! ## Deletion -/

/-- In every arithmetic: what a failure does to a live model. A strong one is never deleted; a weak one
is deleted exactly when its new rate falls to the threshold. A success never deletes. -/
theorem C45_deletion (A : Arith) (m : Mdl) (hd : m.dead = false) (e : Ev) :
    (isSucc e = true → (step A t m e).dead = false) ∧
    (m.strength = 1 → (step A t m e).dead = false) ∧
    (m.strength ≠ 1 → isFail e = true →
      ((step A t m e).dead = true ↔ A.div (A.mul m.sr m.cnt) (A.add m.cnt 1) ≤ t.actThr)) := by
  have sec : (rateSec A t m).dead = false := by
    unfold rateSec; rw [if_neg (by simp [hd])]; simp only
    split
    · exact hd
    · split <;> exact hd
  have suc : (rate A t m true).dead = false := by
    unfold rate; rw [if_neg (by simp [hd])]; simp only [if_true]
    split <;> exact hd
  refine ⟨fun h => ?_, fun h => ?_, fun h hf => ?_⟩
  · cases e with
    | primary s c rf =>
      simp only [isSucc, Bool.and_eq_true, decide_eq_true_eq] at h
      simp only [step, h.1, h.2, if_true]; exact suc
    | secondary s => simp only [isSucc] at h; simp only [step, h, if_true]; exact sec
  · cases e with
    | primary s c rf =>
      simp only [step]
      split
      · split
        · exact suc
        · split
          · unfold rate; rw [if_neg (by simp [hd])]; simp only [Bool.false_eq_true, if_false]
            split_ifs
            · exact hd
            · exact hd
          · exact hd
      · exact hd
    | secondary s =>
      simp only [step]
      split
      · exact sec
      · exact hd
  · cases e with
    | primary s c rf =>
      simp only [isFail, isSucc, counted] at hf
      cases s <;> simp at hf
      simp only [step, hf.1, hf.2, if_true, rate, hd, Bool.false_eq_true, if_false]
      split_ifs
      · simp only [hd, Bool.false_eq_true, false_iff, not_le]; assumption
      · simp only [true_iff]; exact not_lt.1 (by assumption)
    | secondary s => cases s <;> simp [isFail, isSucc, counted] at hf

/-! ## Single precision: violations and witnesses -/

/-- In single precision a success can lower the rate, and a count of 2^23 never grows again. -/
theorem C45_single_violated :
    (let m : Mdl := ⟨0, 7543797 / 8388608, 4834714, 1, 1, 0, false⟩
     F32.store m.sr = m.sr ∧ (step single ⟨9/10, 6, 1/2, 0⟩ m (.primary true 1 true)).sr < m.sr) ∧
    (let m : Mdl := ⟨0, 1/2, 8388608, 1, 1, 0, false⟩
     (step single ⟨9/10, 6, 1/4, 0⟩ m (.primary false 1 true)).cnt = m.cnt) := by
  refine ⟨⟨?_, ?_⟩, ?_⟩
  · rw [store_down (-1) 7543797] <;> norm_num
  · have e1 : fl (7543797 / 8388608 * 4834714) = 4347813 := by
      rw [fl_down 22 8695626] <;> norm_num
    have e2 : fl (4347813 + 1) = 4347814 := by
      rw [fl_down 22 8695628] <;> norm_num
    have e3 : fl (4834714 + 1) = 4834715 := by
      rw [fl_down 22 9669430] <;> norm_num
    have e4 : fl (4347814 / 4834715) = 15087593 / 16777216 := by
      rw [fl_down (-1) 15087593] <;> norm_num
    have e5 : F32.store (15087593 / 16777216) = 7543796 / 8388608 := by
      rw [store_down (-1) 7543796] <;> norm_num
    have e6 : ¬ ((9 : Rat) / 10 ≤ 15087593 / 16777216 ∧ ((6 : Nat) : Rat) ≤ 4834715) := by norm_num
    simp only [step, if_true, rate, Bool.false_eq_true, if_false, single, e1, e2, e3, e4]
    rw [if_neg e6]; simp only [e5]; norm_num
  · have e1 : fl (1 / 2 * 8388608) = 4194304 := by
      rw [fl_down 22 8388608] <;> norm_num
    have e3 : fl (8388608 + 1) = 8388609 := by
      rw [fl_down 23 8388609] <;> norm_num
    have e4 : (1 : Rat) / 4 < fl (4194304 / 8388609) := by
      rw [fl_down (-2) 16777214] <;> norm_num
    have e5 : F32.store 8388609 = 8388608 := by
      rw [store_down 23 4194304] <;> norm_num
    simp only [step, if_true, rate, Bool.false_eq_true, if_false, single, e1, e3]
    rw [if_pos e4]; simp only [e5]

/-- A learned model (pattern_extractor.cpp:494-497) with the default thresholds and two failures and two
successes: the hypotheses of `C45_rate_partial`, `C45_bounds` are met, and the rate is 3/5. -/
theorem C45_nonvacuous :
    let t : Thr := ⟨9/10, 6, 1/10, 0⟩
    let m : Mdl := ⟨0, 1, 1, 1, 1, 0, false⟩
    let es : List Ev := [.primary false 1 true, .primary true 1 false, .primary true (1/2) true, .secondary true,
      .primary false 1 true]
    Records m 1 1 ∧ NoPromotion t 1 1 es ∧ StaysAbove t 1 1 es ∧ trueRate 1 1 es = 3/5 ∧
      (run exact t m es).sr = 3/5 := by
  have h5 : decide ((1 : Rat) / 2 = 1) = false := by norm_num
  have o : outcomes [.primary false 1 true, .primary true 1 false, .primary true (1/2) true, .secondary true,
      .primary false 1 true] = 4 := by
    simp only [outcomes, counted, List.filter, h5]; simp
  have s : successes [.primary false 1 true, .primary true 1 false, .primary true (1/2) true, .secondary true,
      .primary false 1 true] = 2 := by
    simp only [successes, isSucc, List.filter, h5]; simp
  have le : ∀ (pre : List Ev) (e : Ev) (post : List Ev), outcomes (pre ++ [e]) ≤ outcomes (pre ++ e :: post) := by
    intro pre e post
    rw [show pre ++ e :: post = (pre ++ [e]) ++ post by simp, outcomes_append (pre ++ [e])]; omega
  refine ⟨⟨by norm_num, by norm_num⟩, ?_, ?_, ?_, ?_⟩
  · intro pre e post he hs ⟨_, h2⟩
    have := le pre e post
    rw [← he, o] at this
    simp only at h2; omega
  · intro pre e post he hs
    have := le pre e post
    rw [← he, o] at this
    unfold trueRate
    rw [lt_div_iff₀ (by positivity)]
    have a : ((1 + outcomes (pre ++ [e]) : Nat) : Rat) ≤ 5 := by exact_mod_cast (by omega)
    have b : (1 : Rat) ≤ ((1 + successes (pre ++ [e]) : Nat) : Rat) := by exact_mod_cast (by omega)
    simp only; linarith
  · rw [trueRate, o, s]; norm_num
  · norm_num [run, step, rate, rateSec, exact]

end Verif.Rating
