import Verif.Rating.Props
/-!
# C72: where a rated model is active

A model has a view in its primary group and one in its secondary group.  Rating a model asks for
activations in them (`set_act`); a view is active when its activation exceeds the activation threshold of
its group.
-/
namespace Verif.Rating
open Verif.F32

/-! ## Specification -/

/-- The rate of a model when one more outcome is counted, before it is stored. -/
def rated (A : Arith) (m : Mdl) (success : Bool) : Rat :=
  A.div (if success then A.add (A.mul m.sr m.cnt) 1 else A.mul m.sr m.cnt) (A.add m.cnt 1)

/-- The model is asked to be active in its primary group. -/
def InPrimary (t : Thr) (m : Mdl) : Prop := t.actThr < m.act
/-- The model is asked to be active in its secondary group. -/
def InSecondary (t : Thr) (m : Mdl) : Prop := t.secThr < m.secAct

/-- C72 in full, for histories: a model that starts in its primary group with its rate is never asked to
be active in both groups. -/
def C72_full (A : Arith) : Prop := ∀ (t : Thr) (m : Mdl) (es : List Ev),
  0 ≤ t.actThr → 0 ≤ t.secThr → m.dead = false → 0 ≤ m.sr → m.sr ≤ 1 → 1 ≤ m.cnt →
  m.act = m.sr → m.secAct = 0 → (run A t m es).dead = false →
    ¬ (InPrimary t (run A t m es) ∧ InSecondary t (run A t m es))

/-! ## One outcome -/

variable {t : Thr} {m : Mdl}

/-- C72: what a counted outcome asks for, in every arithmetic. Primary controller: after a success, or a
failure that leaves the rate above the threshold, the recorded rate in the primary group, and the
secondary one is left alone; else a strong model leaves the primary group and gets its rate in the
secondary one. Secondary controller: a rate above the threshold of the primary group moves the model back
there; one above the threshold of the secondary group is set there; otherwise nothing is asked. -/
theorem C72_follows (A : Arith) (hd : m.dead = false) (e : Ev) (he : counted e = true) :
    (∀ s c rf, e = .primary s c rf → (s = true ∨ t.actThr < rated A m s) →
      A.store (step A t m e).act = (step A t m e).sr ∧ (step A t m e).secAct = m.secAct) ∧
    (∀ s c rf, e = .primary s c rf → s = false → rated A m s ≤ t.actThr → m.strength = 1 →
      (step A t m e).act = 0 ∧ (step A t m e).secAct = rated A m s) ∧
    (∀ s, e = .secondary s → t.actThr < rated A m s →
      (step A t m e).secAct = 0 ∧ A.store (step A t m e).act = (step A t m e).sr) ∧
    (∀ s, e = .secondary s → rated A m s ≤ t.actThr → t.secThr < rated A m s →
      A.store (step A t m e).secAct = (step A t m e).sr ∧ (step A t m e).act = m.act) ∧
    (∀ s, e = .secondary s → rated A m s ≤ t.actThr → rated A m s ≤ t.secThr →
      (step A t m e).secAct = m.secAct ∧ (step A t m e).act = m.act) := by
  refine ⟨?_, ?_, ?_, ?_, ?_⟩
  · intro s c rf h hr
    subst h
    simp only [counted, Bool.and_eq_true, decide_eq_true_eq, Bool.or_eq_true] at he
    cases s with
    | true =>
      simp only [step, he.1, if_true, rate, hd, Bool.false_eq_true, if_false]
      split <;> exact ⟨rfl, rfl⟩
    | false =>
      simp only [Bool.false_eq_true, false_or] at he hr
      simp only [rated, Bool.false_eq_true, if_false] at hr
      simp only [step, he.1, he.2, if_true, rate, hd, Bool.false_eq_true, if_false, hr]
      exact ⟨trivial, trivial⟩
  · intro s c rf h hs hr h1
    subst h hs
    simp only [counted, Bool.and_eq_true, decide_eq_true_eq, Bool.or_eq_true, Bool.false_eq_true,
      false_or] at he
    simp only [rated, Bool.false_eq_true, if_false] at hr ⊢
    simp only [step, he.1, he.2, if_true, rate, hd, Bool.false_eq_true, if_false, not_lt.2 hr, h1]
    exact ⟨trivial, trivial⟩
  · intro s h hr
    subst h
    simp only [counted] at he
    subst he
    simp only [rated, if_true] at hr
    simp only [step, if_true, rateSec, hd, Bool.false_eq_true, if_false, hr]
    exact ⟨trivial, trivial⟩
  · intro s h hr hr'
    subst h
    simp only [counted] at he
    subst he
    simp only [rated, if_true] at hr hr'
    simp only [step, if_true, rateSec, hd, Bool.false_eq_true, if_false, not_lt.2 hr, hr']
    exact ⟨trivial, trivial⟩
  · intro s h hr hr'
    subst h
    simp only [counted] at he
    subst he
    simp only [rated, if_true] at hr hr'
    simp only [step, if_true, rateSec, hd, Bool.false_eq_true, if_false, not_lt.2 hr, not_lt.2 hr']
    exact ⟨trivial, trivial⟩

/-! ## Histories -/

/-- No success of the primary controller is counted while the model is active in the secondary group
(such as one of a prediction made before it was phased out). -/
def NoLateSuccess (A : Arith) (t : Thr) (m : Mdl) (es : List Ev) : Prop :=
  ∀ pre e post, es = pre ++ e :: post → primSucc e = true → ¬ InSecondary t (run A t m pre)

/-- The invariant. -/
def Placed (t : Thr) (m : Mdl) : Prop :=
  (InPrimary t m → t.actThr < m.sr) ∧
  (InSecondary t m → m.act ≤ t.actThr ∧ m.sr * m.cnt / (m.cnt + 1) ≤ t.actThr)

theorem placed_step (h0 : 0 ≤ t.actThr) (h1 : 0 ≤ t.secThr) (hb : Bounded exact m) (hp : Placed t m) (e : Ev)
    (hl : primSucc e = true → ¬ InSecondary t m) : Placed t (step exact t m e) := by
  obtain ⟨b0, b1, b2, -⟩ := hb
  obtain ⟨p1, p2⟩ := hp
  have hc : 0 < m.cnt + 1 := by linarith
  have up : m.sr ≤ (m.sr * m.cnt + 1) / (m.cnt + 1) := by
    rw [le_div_iff₀ hc]; nlinarith
  have shrink : ∀ r n : Rat, 0 ≤ r → 1 ≤ n → r * n / (n + 1) ≤ r := by
    intro r n hr hn
    rw [div_le_iff₀ (by linarith)]; nlinarith
  have keep : Placed t m := ⟨p1, p2⟩
  have r0 : 0 ≤ (m.sr * m.cnt + 1) / (m.cnt + 1) := by linarith
  cases e with
  | primary s c rf =>
    simp only [step]
    by_cases hcf : c = 1
    swap
    · rw [if_neg hcf]; exact keep
    rw [if_pos hcf]
    by_cases hdd : m.dead = true
    · have rd : ∀ b, rate exact t m b = m := fun b => by unfold rate; rw [if_pos hdd]
      rw [rd, rd]; split
      · exact keep
      · split <;> exact keep
    cases s with
    | true =>
      rw [if_pos rfl]
      have hn : ¬ InSecondary t m := hl (by simp [primSucc, hcf])
      unfold rate
      rw [if_neg hdd]
      simp only [if_true]
      split_ifs
      · exact ⟨fun h => h, fun h => absurd h hn⟩
      · exact ⟨fun h => h, fun h => absurd h hn⟩
      · exact ⟨fun h => h, fun h => absurd h hn⟩
    | false =>
      rw [if_neg (by simp)]
      split
      swap
      · exact keep
      unfold rate
      rw [if_neg hdd]
      simp only [Bool.false_eq_true, if_false]
      split_ifs with hr
      · exact ⟨fun h => h, fun h => absurd (p2 h).2 (not_le.2 hr)⟩
      · exact ⟨fun h => absurd h (not_lt.2 h0), fun _ => ⟨h0, not_lt.1 hr⟩⟩
      · exact keep
  | secondary s =>
    simp only [step]
    split
    swap
    · exact keep
    unfold rateSec
    by_cases hdd : m.dead = true
    · rw [if_pos hdd]; exact keep
    rw [if_neg hdd]
    simp only
    have hout : ¬ t.actThr < (m.sr * m.cnt + 1) / (m.cnt + 1) → m.act ≤ t.actThr ∧
        (m.sr * m.cnt + 1) / (m.cnt + 1) * (m.cnt + 1) / (m.cnt + 1 + 1) ≤ t.actThr := by
      intro hr
      refine ⟨?_, (shrink _ (m.cnt + 1) r0 (by linarith)).trans (not_lt.1 hr)⟩
      by_contra hc'
      have := p1 (not_le.1 hc')
      linarith
    split_ifs with hr hr'
    · exact ⟨fun h => h, fun h => absurd h (not_lt.2 h1)⟩
    · exact ⟨fun h => absurd h (not_lt.2 (hout hr).1), fun _ => hout hr⟩
    · exact ⟨fun h => absurd h (not_lt.2 (hout hr).1), fun _ => hout hr⟩

/-- C72, partial (exact arithmetic): a model is never asked to be active in both groups, as long as no
success of the primary controller is counted while the model is active in the secondary group.  Missing:
such late successes (`C72_one_group_violated`). -/
theorem C72_one_group_partial (t : Thr) (m : Mdl) (es : List Ev) (h0 : 0 ≤ t.actThr) (h1 : 0 ≤ t.secThr)
    (hs0 : 0 ≤ m.sr) (hs1 : m.sr ≤ 1) (hc : 1 ≤ m.cnt) (ha : m.act = m.sr) (hsec : m.secAct = 0)
    (hl : NoLateSuccess exact t m es) :
    ¬ (InPrimary t (run exact t m es) ∧ InSecondary t (run exact t m es)) := by
  have main : Placed t (run exact t m es) := by
    induction es using List.reverseRecOn with
    | nil =>
      refine ⟨fun h => ?_, fun h => ?_⟩
      · change t.actThr < m.sr
        rw [← ha]; exact h
      · unfold InSecondary at h; rw [show (run exact t m []).secAct = 0 from hsec] at h
        exact absurd h (not_lt.2 h1)
    | append_singleton es e ih =>
      have hr : run exact t m (es ++ [e]) = step exact t (run exact t m es) e := by
        simp [run, List.foldl_append]
      rw [hr]
      refine placed_step h0 h1 (bounded_run sane_exact es ⟨hs0, hs1, hc, rfl⟩) (ih ?_) e ?_
      · intro pre x post hx
        exact hl pre x (post ++ [e]) (by rw [hx]; simp)
      · exact hl es e [] rfl
  rintro ⟨a, b⟩
  have := (main.2 b).1
  unfold InPrimary at a
  linarith

/-- C72 is violated: a strong model fails and is phased out; an earlier prediction then comes true, and
the model is active in both groups. -/
theorem C72_one_group_violated : ¬ C72_full exact ∧
    (let t : Thr := ⟨9/10, 6, 1/2, 0⟩
     let m : Mdl := ⟨1, 1, 1, 1, 1, 0, false⟩
     let m' := run exact t m [.primary false 1 true, .primary true 1 true]
     m'.act = 1 ∧ m'.secAct = 1/2) := by
  constructor
  · intro h
    have := h ⟨9/10, 6, 1/2, 0⟩ ⟨1, 1, 1, 1, 1, 0, false⟩ [.primary false 1 true, .primary true 1 true]
      (by norm_num) (by norm_num) rfl (by norm_num) (by norm_num) (by norm_num) rfl rfl
      (by norm_num [run, step, rate, exact])
    apply this
    norm_num [run, step, rate, exact, InPrimary, InSecondary]
  · norm_num [run, step, rate, exact]

/-- The hypotheses of `C72_one_group_partial` are met by a strong model that fails, is phased out, succeeds
in the secondary group, is phased in again and succeeds in the primary group. -/
theorem C72_nonvacuous :
    let t : Thr := ⟨9/10, 6, 1/2, 0⟩
    let m : Mdl := ⟨1, 1, 1, 1, 1, 0, false⟩
    let es : List Ev := [.primary false 1 true, .secondary true, .primary true 1 true]
    NoLateSuccess exact t m es ∧ InSecondary t (run exact t m (es.take 1)) ∧
      InPrimary t (run exact t m (es.take 2)) ∧ ¬ InSecondary t (run exact t m (es.take 2)) ∧
      (run exact t m es).act = 1 := by
  refine ⟨?_, ?_, ?_, ?_, ?_⟩
  · intro pre e post he hs
    rcases pre with _ | ⟨a, _ | ⟨b, _ | ⟨c, pre⟩⟩⟩
    · injection he with h1 _; subst h1; simp [primSucc] at hs
    · injection he with _ h2; injection h2 with h1 _; subst h1; simp [primSucc] at hs
    · injection he with h1 h2; injection h2 with h3 h4
      subst h1 h3
      norm_num [run, step, rate, rateSec, exact, InSecondary]
    · simp at he
  · norm_num [run, step, rate, rateSec, exact, InSecondary]
  · norm_num [run, step, rate, rateSec, exact, InPrimary]
  · norm_num [run, step, rate, rateSec, exact, InSecondary]
  · norm_num [run, step, rate, rateSec, exact]

end Verif.Rating
