import Verif.Assume.Spec
import Verif.Abduce.Props
import Mathlib.Data.List.Induction
/-!
# C130 to C132
-/
namespace Verif.Assume
open Verif.F32 (Arith)
open Verif.Abduce (Bound Target Says)
open Verif.Requirements (Status)

theorem says_target (A : Arith) (b : Bound) (o : Bool) (q : Rat) : Says A b o q (Abduce.target A b o q) :=
  ⟨rfl, by simp only [Abduce.target]; cases b.positive <;> cases o <;> simp, rfl, rfl, rfl⟩

theorem says_unique {A : Arith} {b : Bound} {o : Bool} {q : Rat} {t : Target} (h : Says A b o q t) :
    t = Abduce.target A b o q := by
  obtain ⟨h1, h2, h3, h4, h5⟩ := h
  cases t
  simp only [Abduce.target, Target.mk.injEq]
  refine ⟨h1, ?_, h3, h4, h5⟩
  dsimp only at h2
  rename_i p _ _ _
  revert h2
  cases p <;> cases b.positive <;> cases o <;> simp

/-- What `assume` makes. -/
theorem assume_iff (A : Arith) (m : Mdl) (now : Int) (k : Nat) (x : In) (e : Eff) : assume A m now k x = some e ↔
    Assumes m ∧ x.pred = false ∧ m.thr < A.mul m.rate x.cfd ∧ x.timed = true ∧ (x.req = .weakEnabled ∨ x.req = .noRequirement) ∧
    ∃ b o, x.lhs = some b ∧ ((x.meets = .rhs ∧ o = false) ∨ (x.meets = .notRhs ∧ o = true)) ∧
      e = .assume k (Abduce.target A b o (A.mul m.rate x.cfd)) (A.mul m.rate x.cfd)
        (Lifetime.goalRes m.ref m.upr now (if b.before > now then b.before - now else 0)) := by
  have hl : ∀ o, assumeLhs A m now k x o (A.mul m.rate x.cfd) = some e ↔ x.timed = true ∧
      (x.req = .weakEnabled ∨ x.req = .noRequirement) ∧ ∃ b, x.lhs = some b ∧
      e = .assume k (Abduce.target A b o (A.mul m.rate x.cfd)) (A.mul m.rate x.cfd)
        (Lifetime.goalRes m.ref m.upr now (if b.before > now then b.before - now else 0)) := by
    intro o
    unfold assumeLhs
    cases ht : x.timed <;> cases hr : x.req <;> cases hb : x.lhs <;> simp [eq_comm]
  unfold assume Assumes
  cases h1 : m.isReq <;> cases h2 : m.isReuse <;> cases h3 : m.isCmd <;> simp only [Bool.or_false, Bool.or_true, Bool.or_self,
    if_true, reduceCtorEq, false_and, and_false, Bool.false_eq_true, if_false, Bool.true_or]
  by_cases h4 : m.strength = 0
  · simp [h4]
  · rw [if_neg h4]
    cases h5 : x.pred
    · simp only [Bool.false_eq_true, if_false]
      by_cases h6 : A.mul m.rate x.cfd ≤ m.thr
      · rw [if_pos h6]
        simp [not_lt.mpr h6]
      · rw [if_neg h6]
        have h6' := not_le.mp h6
        cases h7 : x.meets <;> simp [hl, h4, h6']
    · simp

theorem assumed_dispatch (A : Arith) (m : Mdl) (now : Int) (k : Nat) (x : In) :
    assumed (dispatch A m now k x).1 = [] ∧
    (∀ e, (dispatch A m now k x).2 = some e ↔ Unexplained x ∧ assume A m now k x = some e) := by
  unfold dispatch Unexplained
  cases hg : x.goal
  · cases hp : x.pred <;> cases hh : x.hit <;> cases hf : x.foretold <;> cases hw : x.wanted <;> simp [assumed, assume, hp]
  · simp [assumed]

/-- C130. -/
theorem C130_assumed : C130_full := by
  intro A m now s x
  have key : ∀ es s', reduce A m now s x = (s', es) → (assumed es = [] ∧
      (s.orphan = true ∨ s.inv x.obj = true ∨ (∃ k, x.obj = .own k) ∨ dispatch A m now s.made x = (es, none))) ∨
      ∃ e es₀, dispatch A m now s.made x = (es₀, some e) ∧ es = es₀ ++ [e] ∧ s'.made = s.made + 1 := by
    intro es s' h
    unfold reduce at h
    by_cases ho : s.orphan = true
    · rw [if_pos ho] at h
      cases h
      exact Or.inl ⟨rfl, Or.inl ho⟩
    · rw [if_neg ho] at h
      by_cases hi : s.inv x.obj = true
      · rw [if_pos hi] at h
        cases h
        exact Or.inl ⟨rfl, Or.inr (Or.inl hi)⟩
      · rw [if_neg hi] at h
        dsimp only at h
        by_cases hc : (collect s.inv x.obj s.kept).2 = true
        · rw [if_pos hc] at h
          cases h
          refine Or.inl ⟨rfl, Or.inr (Or.inr (Or.inl ?_))⟩
          have : ∀ l, (collect s.inv x.obj l).2 = true → ∃ k, x.obj = .own k := by
            intro l
            induction l with
            | nil => intro h; cases h
            | cons k l ih =>
              unfold collect
              split_ifs with h1 h2
              · exact ih
              · exact fun _ => ⟨k, h2.symm⟩
              · exact ih
          exact this _ hc
        · rw [if_neg hc] at h
          cases hd : dispatch A m now s.made x with
          | mk es₀ oe =>
            rw [hd] at h
            cases oe with
            | none =>
              cases h
              refine Or.inl ⟨?_, Or.inr (Or.inr (Or.inr rfl))⟩
              have := (assumed_dispatch A m now s.made x).1
              rw [hd] at this
              exact this
            | some e =>
              cases h
              exact Or.inr ⟨e, es₀, rfl, rfl, rfl⟩
  rcases key (reduce A m now s x).2 (reduce A m now s x).1 rfl with ⟨h1, h2⟩ | ⟨e, es₀, h1, h2, h3⟩
  · refine ⟨by rw [h1]; simp, ?_, by rw [h1]; simp⟩
    intro ho hi hx hm hu ht t he
    exfalso
    rcases h2 with h2 | h2 | ⟨k, h2⟩ | h2
    · rw [ho] at h2; cases h2
    · rw [hi] at h2; cases h2
    · exact hx k h2
    · obtain ⟨hr, htm, b, o, hb, hmt, hs⟩ := he
      have := ((assumed_dispatch A m now s.made x).2 _).mpr ⟨hu, (assume_iff A m now s.made x _).mpr
        ⟨hm, hu.2.1, ht, htm, hr, b, o, hb, hmt, rfl⟩⟩
      rw [h2] at this
      cases this
  · have ha := (assumed_dispatch A m now s.made x).1
    have hb := ((assumed_dispatch A m now s.made x).2 e)
    rw [h1] at ha hb
    obtain ⟨hu, hse⟩ : Unexplained x ∧ assume A m now s.made x = some e := hb.mp rfl
    obtain ⟨k1, _, k3, k4, k5, b, o, k6, k7, k8⟩ := (assume_iff A m now s.made x e).mp hse
    have hae : assumed (reduce A m now s x).2 = [(s.made, Abduce.target A b o (A.mul m.rate x.cfd), A.mul m.rate x.cfd,
        Lifetime.goalRes m.ref m.upr now (if b.before > now then b.before - now else 0))] := by
      rw [h2]
      unfold assumed at ha ⊢
      rw [List.filterMap_append]
      dsimp only at ha
      rw [ha, k8]
      rfl
    refine ⟨?_, ?_, by rw [hae]; simp⟩
    · intro k t sln res hmem
      rw [hae] at hmem
      simp only [List.mem_singleton, Prod.mk.injEq] at hmem
      obtain ⟨rfl, rfl, rfl, rfl⟩ := hmem
      refine ⟨k1, hu, k3, ⟨k5, k4, b, o, k6, k7, says_target A b o _⟩, rfl, ⟨_, ?_, rfl⟩, rfl, h3⟩
      constructor
      · intro hle
        show (if b.before > now then b.before - now else 0) = b.before - now
        change now ≤ b.before at hle
        split_ifs <;> omega
      · intro hle
        change b.before ≤ now at hle
        rw [if_neg (by omega)]
    · intro _ _ _ _ _ _ t he
      obtain ⟨_, _, b', o', hb', hmt', hs'⟩ := he
      rw [k6] at hb'
      cases hb'
      have : o' = o := by
        rcases k7 with ⟨q1, q2⟩ | ⟨q1, q2⟩ <;> rcases hmt' with ⟨q3, q4⟩ | ⟨q3, q4⟩ <;> simp_all
      subst this
      rw [hae, says_unique hs']
      exact ⟨_, _, rfl⟩

namespace Ex
def strong : Mdl := { rate := 1 / 2 }
def cause : Bound := ⟨3, true, 100, 200⟩
def effect : In := { obj := .other 1, meets := .rhs, lhs := some cause }
def against : In := { effect with meets := .notRhs }
def own (k : Nat) : In := { obj := .own k, hit := true }
end Ex
open Ex

/-- C130 is not vacuous. -/
theorem C130_nonvacuous :
    assumed (reduce F32.exact strong 150 {} effect).2 =
      [(0, ⟨.thing 3, true, 100, 200, 1 / 2⟩, 1 / 2, Lifetime.goalRes 0 1 150 50)] ∧
    assumed (reduce F32.exact strong 350 {} against).2 =
      [(0, ⟨.thing 3, false, 100, 200, 1 / 2⟩, 1 / 2, Lifetime.goalRes 0 1 350 0)] ∧
    Unexplained effect ∧ Assumes strong ∧
    assumed (reduce F32.exact strong 150 {} { effect with wanted := true }).2 = [] := by
  refine ⟨by decide +kernel, by decide +kernel, by simp [Unexplained, effect], by simp [Assumes, strong], by decide +kernel⟩

/-! ## C131 -/

theorem collect_found (inv : Obj → Bool) (k : Nat) (l : List Nat) (hk : k ∈ l) (hi : inv (.own k) = false) :
    (collect inv (.own k) l).2 = true := by
  induction l with
  | nil => simp at hk
  | cons j l ih =>
    unfold collect
    by_cases hj : inv (.own j) = true
    · rw [if_pos hj]
      rcases List.mem_cons.mp hk with rfl | hk
      · rw [hi] at hj; cases hj
      · exact ih hk
    · rw [if_neg hj]
      by_cases he : Obj.own j = .own k
      · rw [if_pos he]
      · rw [if_neg he]
        rcases List.mem_cons.mp hk with rfl | hk
        · exact absurd rfl he
        · exact ih hk

theorem collect_keeps (inv : Obj → Bool) (o : Obj) (k : Nat) (l : List Nat) (hk : k ∈ l) (hi : inv (.own k) = false)
    (hne : o ≠ .own k) : k ∈ (collect inv o l).1 := by
  induction l with
  | nil => simp at hk
  | cons j l ih =>
    unfold collect
    by_cases hj : inv (.own j) = true
    · rw [if_pos hj]
      rcases List.mem_cons.mp hk with rfl | hk
      · rw [hi] at hj; cases hj
      · exact ih hk
    · rw [if_neg hj]
      by_cases he : Obj.own j = o
      · rw [if_pos he]
        rcases List.mem_cons.mp hk with rfl | hk
        · exact absurd he.symm hne
        · exact hk
      · rw [if_neg he]
        rcases List.mem_cons.mp hk with rfl | hk
        · exact List.mem_cons_self
        · exact List.mem_cons_of_mem _ (ih hk)

/-- What was assumed and has not come back yet is kept, unless it is invalidated. -/
theorem kept_run (A : Arith) (m : Mdl) (es : List Ev) (k : Nat) (hk : k < (run A m es).made)
    (hn : ∀ now x, Ev.input now x ∈ es → x.obj ≠ .own k) : k ∈ (run A m es).kept ∨ (run A m es).inv (.own k) = true := by
  induction es using List.reverseRecOn with
  | nil => simp [run] at hk
  | append_singleton es e ih =>
    have hs : run A m (es ++ [e]) = (step A m (run A m es) e).1 := by simp [run]
    rw [hs] at hk ⊢
    have ih := fun h => ih h (fun now x hx => hn now x (List.mem_append_left _ hx))
    cases e with
    | gone o =>
      rcases ih hk with h | h
      · exact Or.inl h
      · exact Or.inr (by simp [step, h])
    | orphaned => exact ih hk
    | input now x =>
      have hx : x.obj ≠ .own k := hn now x (by simp)
      simp only [step] at hk ⊢
      unfold reduce at hk ⊢
      by_cases ho : (run A m es).orphan = true
      · rw [if_pos ho] at hk ⊢; exact ih hk
      · rw [if_neg ho] at hk ⊢
        by_cases hi : (run A m es).inv x.obj = true
        · rw [if_pos hi] at hk ⊢; exact ih hk
        · rw [if_neg hi] at hk ⊢
          dsimp only at hk ⊢
          have keep : ∀ j, j < (run A m es).made → j = k →
              j ∈ (collect (run A m es).inv x.obj (run A m es).kept).1 ∨ (run A m es).inv (.own k) = true := by
            rintro j hj rfl
            by_cases hinv : (run A m es).inv (.own j) = true
            · exact Or.inr hinv
            · rcases ih hj with h | h
              · exact Or.inl (collect_keeps _ _ _ _ h (by simpa using hinv) hx)
              · exact Or.inr h
          by_cases hc : (collect (run A m es).inv x.obj (run A m es).kept).2 = true
          · rw [if_pos hc] at hk ⊢
            exact keep k hk rfl
          · rw [if_neg hc] at hk ⊢
            cases hd : dispatch A m now (run A m es).made x with
            | mk es₀ oe =>
              rw [hd] at hk
              cases oe with
              | none => exact keep k hk rfl
              | some e =>
                dsimp only at hk ⊢
                by_cases hlt : k < (run A m es).made
                · rcases keep k hlt rfl with h | h
                  · exact Or.inl (List.mem_append_left _ h)
                  · exact Or.inr h
                · have : k = (run A m es).made := by omega
                  exact Or.inl (by simp [this])

/-- C131 in part: a model takes nothing from what it assumed when it comes for the first time, whatever happened between.
Missing: when it comes again, see `C131_own_violated`. -/
theorem C131_own_partial : ∀ A m es now x k, x.obj = .own k → k < (run A m es).made →
    (∀ now' y, Ev.input now' y ∈ es → y.obj ≠ .own k) → (reduce A m now (run A m es) x).2 = [] := by
  intro A m es now x k hx hk hn
  unfold reduce
  by_cases ho : (run A m es).orphan = true
  · rw [if_pos ho]
  · rw [if_neg ho]
    by_cases hi : (run A m es).inv x.obj = true
    · rw [if_pos hi]
    · rw [if_neg hi]
      dsimp only
      rcases kept_run A m es k hk hn with h | h
      · rw [hx] at hi ⊢
        rw [if_pos (collect_found _ k _ h (by simpa using hi))]
      · rw [hx] at hi
        exact absurd h hi

/-- C131 fails as stated: an assumption that becomes salient again is an input like any other. -/
theorem C131_own_violated : ¬ C131_full ∧
    (reduce F32.exact strong 160 (run F32.exact strong [.input 150 effect, .input 155 (own 0)]) (own 0)).2 =
      [.chain (.own 0), .goals (.own 0)] := by
  have h1 : (reduce F32.exact strong 160 (run F32.exact strong [.input 150 effect, .input 155 (own 0)]) (own 0)).2 =
      [.chain (.own 0), .goals (.own 0)] := by decide +kernel
  refine ⟨fun hf => ?_, h1⟩
  have := hf F32.exact strong [.input 150 effect, .input 155 (own 0)] 160 (own 0) 0 rfl (by decide +kernel)
  rw [h1] at this
  cases this

/-- C131 is not vacuous. -/
theorem C131_nonvacuous : (run F32.exact strong [.input 150 effect, .input 151 { effect with obj := .other 2 }, .gone (.own 0)]).made = 2 ∧
    (reduce F32.exact strong 160 (run F32.exact strong [.input 150 effect, .input 151 { effect with obj := .other 2 },
      .gone (.own 0)]) (own 1)).2 = [] := by
  refine ⟨by decide +kernel, by decide +kernel⟩

/-! ## C132 -/

/-- C132 in part: a model that has ever failed, and does not make more of an input than it is, assumes nothing that
rates models; an evidence that is certain does. -/
theorem C132_rating_partial :
    (∀ A m now s x k t sln res, A.store (A.mul m.rate x.cfd) < 1 → (k, t, sln, res) ∈ assumed (reduce A m now s x).2 →
      rates t.cfd = false) ∧ rates 1 = true := by
  refine ⟨?_, by decide⟩
  intro A m now s x k t sln res h hm
  obtain ⟨_, _, _, ⟨_, _, b, o, _, _, hs⟩, _⟩ := (C130_assumed A m now s x).sound k t sln res hm
  unfold rates
  rw [hs.cfd]
  exact beq_false_of_ne h.ne

/-- C132 fails as stated: what a model that has never failed assumes from something certain is taken for an actual
evidence; an actual evidence that is not certain is taken for an assumption. -/
theorem C132_rating_violated : ¬ C132_full ∧
    (assumed (reduce F32.exact { strong with rate := 1 } 150 {} effect).2).map (fun x => rates x.2.1.cfd) = [true] ∧
    rates (9 / 10) = false := by
  refine ⟨fun hf => ?_, by decide +kernel, by decide +kernel⟩
  have := hf.2 (9 / 10) (by norm_num) (by norm_num)
  exact absurd this (by decide +kernel)

/-- C132 is not vacuous. -/
theorem C132_nonvacuous : F32.exact.store (F32.exact.mul strong.rate effect.cfd) < 1 ∧
    (assumed (reduce F32.exact strong 150 {} effect).2).map (fun x => rates x.2.1.cfd) = [false] := by
  refine ⟨by decide +kernel, by decide +kernel⟩

end Verif.Assume
