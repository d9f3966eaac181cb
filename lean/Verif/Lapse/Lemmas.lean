import Verif.Lapse.Spec
import Mathlib.Data.List.Induction
import Mathlib.Tactic.SplitIfs
/-!
# Lemmas on lapsing
-/
namespace Verif.Lapse
open Verif.F32 Verif.ViewCtl

theorem run_append (E : Env) (m : Mdl) (h h' : List (Int × Op)) : run E m (h ++ h') = run E (run E m h) h' := by
  simp [run]

theorem run_snoc (E : Env) (m : Mdl) (h : List (Int × Op)) (t : Int) (op : Op) :
    run E m (h ++ [(t, op)]) = step E (run E m h) t op := by simp [run]

theorem at_snoc {E : Env} {m0 : Mdl} {h : List (Int × Op)} {t : Int} {op : Op} {u : Int} {P : Mdl → Op → Prop} :
    At E m0 (h ++ [(t, op)]) u P ↔ At E m0 h u P ∨ (u = t ∧ P (run E m0 h) op) := by
  constructor
  · rintro ⟨h1, op', h2, he, hp⟩
    rcases List.eq_nil_or_concat h2 with rfl | ⟨h2', x, rfl⟩
    · obtain ⟨e1, e2⟩ := List.append_inj' he (by simp)
      simp only [List.cons.injEq, Prod.mk.injEq, and_true] at e2
      right
      rw [e2.2, e1]
      exact ⟨e2.1.symm, hp⟩
    · left
      have he' : h ++ [(t, op)] = (h1 ++ (u, op') :: h2') ++ [x] := by rw [he]; simp
      obtain ⟨e1, -⟩ := List.append_inj' he' (by simp)
      exact ⟨h1, op', h2', e1, hp⟩
  · rintro (⟨h1, op', h2, rfl, hp⟩ | ⟨rfl, hp⟩)
    · exact ⟨h1, op', h2 ++ [(t, op)], by simp, hp⟩
    · exact ⟨h, op, [], rfl, hp⟩

/-! ## What the parts leave alone -/

@[simp] theorem killP_plast (m : Mdl) : (killP m).p.last = m.p.last := by unfold killP; split <;> rfl
@[simp] theorem killP_s (m : Mdl) : (killP m).s = m.s := by unfold killP; split <;> rfl
@[simp] theorem killP_pa (m : Mdl) : (killP m).pa = m.pa := by unfold killP; split <;> rfl
@[simp] theorem killP_sa (m : Mdl) : (killP m).sa = m.sa := by unfold killP; split <;> rfl
@[simp] theorem killP_status (m : Mdl) : (killP m).status = m.status := by unfold killP; split <;> rfl
@[simp] theorem killP_pon (m : Mdl) : (killP m).p.on = m.p.on := by unfold killP; split <;> rfl
@[simp] theorem killP_pjobs (m : Mdl) : (killP m).p.jobs = m.p.jobs := by unfold killP; split <;> rfl
@[simp] theorem killP_inv (m : Mdl) : (killP m).p.inv = true := by unfold killP; split <;> simp_all

theorem rateP_last (E : Env) (m : Mdl) (o : Out) : (rateP E m o).p.last = m.p.last ∧ (rateP E m o).s = m.s := by
  unfold rateP; split_ifs <;> simp

theorem rateS_last (E : Env) (m : Mdl) (r : Rat) : (rateS E m r).p = m.p ∧ (rateS E m r).s = m.s := by
  unfold rateS; split_ifs <;> simp

theorem ratesP_last (E : Env) (outs : List Out) (m : Mdl) :
    (outs.foldl (rateP E) m).p.last = m.p.last ∧ (outs.foldl (rateP E) m).s = m.s := by
  induction outs generalizing m with
  | nil => simp
  | cons o l ih =>
    rw [List.foldl_cons]
    exact ⟨(ih _).1.trans (rateP_last E m o).1, (ih _).2.trans (rateP_last E m o).2⟩

theorem ratesS_last (E : Env) (outs : List Rat) (m : Mdl) :
    (outs.foldl (rateS E) m).p = m.p ∧ (outs.foldl (rateS E) m).s = m.s := by
  induction outs generalizing m with
  | nil => simp
  | cons o l ih =>
    rw [List.foldl_cons]
    exact ⟨(ih _).1.trans (rateS_last E m o).1, (ih _).2.trans (rateS_last E m o).2⟩

theorem activate_last (thr : Rat) (c : Ctl) (a : Chan) : (activate thr c a).last = c.last := by
  unfold activate; split_ifs <;> rfl

theorem checkP_s (E : Env) (t : Int) (m : Mdl) (b : Bool) : (checkP E t m b).s = m.s := by
  unfold checkP; split_ifs <;> rfl

theorem checkS_p (E : Env) (t : Int) (m : Mdl) (b : Bool) : (checkS E t m b).p = m.p := by
  unfold checkS; split_ifs <;> rfl

/-- The last match of the primary controller moves only at a match. -/
theorem step_plast (E : Env) (m : Mdl) (t : Int) (op : Op) :
    (MatchP m op ∧ (step E m t op).p.last = t) ∨ (¬ MatchP m op ∧ (step E m t op).p.last = m.p.last) := by
  cases op with
  | runP i outs =>
    by_cases hj : m.p.jobs = 0
    · right
      refine ⟨?_, by simp [step, hj]⟩
      rintro ⟨_, _, he, h, -⟩
      exact h hj
    · by_cases ho : i.orphan = true
      · right
        refine ⟨?_, by simp [step, hj, reduceP, ho]⟩
        rintro ⟨_, _, he, -, ⟨h, -⟩, -⟩
        cases he; simp [ho] at h
      · by_cases hd : i.dead = true
        · right
          refine ⟨?_, by simp [step, hj, reduceP, ho, hd]⟩
          rintro ⟨_, _, he, -, ⟨-, h⟩, -⟩
          cases he; simp [hd] at h
        · by_cases hg : i.goal = true
          · right
            refine ⟨?_, by simp [step, hj, reduceP, ho, hd, hg]⟩
            rintro ⟨_, _, he, -, -, h, -⟩
            cases he; simp [hg] at h
          · by_cases hh : i.hit = true
            · left
              refine ⟨⟨i, outs, rfl, hj, ⟨by simpa using ho, by simpa using hd⟩, by simpa using hg, hh⟩, ?_⟩
              simp [step, hj, reduceP, ho, hd, hg, hh, checkP]
            · right
              refine ⟨?_, ?_⟩
              · rintro ⟨_, _, he, -, -, -, h⟩
                cases he; exact hh h
              · simp only [step, hj, reduceP, ho, hd, hg, hh, checkP, if_false, Bool.false_eq_true]
                split_ifs <;> simp [(ratesP_last E outs _).1]
  | giveP f g => right; exact ⟨(by rintro ⟨_, _, he, -⟩; cases he), by simp only [step]; split_ifs <;> simp⟩
  | giveS f g => right; exact ⟨(by rintro ⟨_, _, he, -⟩; cases he), by simp only [step]; split_ifs <;> simp [killS]⟩
  | runS i outs =>
    right
    refine ⟨(by rintro ⟨_, _, he, -⟩; cases he), ?_⟩
    simp only [step, reduceS]
    split_ifs <;> simp [killS, checkS_p, (ratesS_last E outs _).1]
  | timer o => right; exact ⟨(by rintro ⟨_, _, he, -⟩; cases he), by simp only [step]; split_ifs <;> simp [(rateP_last E m o).1]⟩
  | tellP o => right; exact ⟨(by rintro ⟨_, _, he, -⟩; cases he), by simp [step, (rateP_last E m o).1]⟩
  | tellS r => right; exact ⟨(by rintro ⟨_, _, he, -⟩; cases he), by simp [step, (rateS_last E m r).1]⟩
  | updP =>
    right
    refine ⟨(by rintro ⟨_, _, he, -⟩; cases he), ?_⟩
    simp only [step, updP]
    split_ifs <;> simp [activate_last]
  | updS =>
    right
    refine ⟨(by rintro ⟨_, _, he, -⟩; cases he), ?_⟩
    simp only [step, updS]
    split_ifs <;> simp

/-- The last match of the secondary controller moves only at a match. -/
theorem step_slast (E : Env) (m : Mdl) (t : Int) (op : Op) :
    (MatchS m op ∧ (step E m t op).s.last = t) ∨ (¬ MatchS m op ∧ (step E m t op).s.last = m.s.last) := by
  cases op with
  | runS i outs =>
    by_cases hj : m.s.jobs = 0
    · right
      refine ⟨?_, by simp [step, hj]⟩
      rintro ⟨_, _, he, h, -⟩
      exact h hj
    · by_cases ho : i.orphan = true
      · right
        refine ⟨?_, by simp [step, hj, reduceS, ho, killS]⟩
        rintro ⟨_, _, he, -, ⟨h, -⟩, -⟩
        cases he; simp [ho] at h
      · by_cases hd : i.dead = true
        · right
          refine ⟨?_, by simp [step, hj, reduceS, ho, hd]⟩
          rintro ⟨_, _, he, -, ⟨-, h⟩, -⟩
          cases he; simp [hd] at h
        · by_cases hh : i.hit = true
          · left
            refine ⟨⟨i, outs, rfl, hj, ⟨by simpa using ho, by simpa using hd⟩, hh⟩, ?_⟩
            simp [step, hj, reduceS, ho, hd, hh, checkS]
          · right
            refine ⟨?_, ?_⟩
            · rintro ⟨_, _, he, -, -, h⟩
              cases he; exact hh h
            · simp only [step, hj, reduceS, ho, hd, hh, checkS, if_false, Bool.false_eq_true]
              split_ifs <;> simp [(ratesS_last E outs _).2, killS]
  | giveP f g => right; exact ⟨(by rintro ⟨_, _, he, -⟩; cases he), by simp only [step]; split_ifs <;> simp⟩
  | giveS f g => right; exact ⟨(by rintro ⟨_, _, he, -⟩; cases he), by simp only [step]; split_ifs <;> simp [killS]⟩
  | runP i outs =>
    right
    refine ⟨(by rintro ⟨_, _, he, -⟩; cases he), ?_⟩
    simp only [step, reduceP]
    split_ifs <;> simp [checkP_s, (ratesP_last E outs _).2]
  | timer o => right; exact ⟨(by rintro ⟨_, _, he, -⟩; cases he), by simp only [step]; split_ifs <;> simp [(rateP_last E m o).2]⟩
  | tellP o => right; exact ⟨(by rintro ⟨_, _, he, -⟩; cases he), by simp [step, (rateP_last E m o).2]⟩
  | tellS r => right; exact ⟨(by rintro ⟨_, _, he, -⟩; cases he), by simp [step, (rateS_last E m r).2]⟩
  | updP =>
    right
    refine ⟨(by rintro ⟨_, _, he, -⟩; cases he), ?_⟩
    simp only [step, updP]
    split_ifs <;> simp
  | updS =>
    right
    refine ⟨(by rintro ⟨_, _, he, -⟩; cases he), ?_⟩
    simp only [step, updS]
    split_ifs <;> simp [activate_last]

theorem ordered_snoc {t0 : Int} {h : List (Int × Op)} {t : Int} {op : Op} :
    Ordered t0 (h ++ [(t, op)]) ↔ Ordered t0 h ∧ t0 ≤ t ∧ ∀ e ∈ h, e.1 ≤ t := by
  unfold Ordered
  rw [List.pairwise_append]
  constructor
  · rintro ⟨h1, h2, -, h3⟩
    exact ⟨⟨fun e he => h1 e (by simp [he]), h2⟩, h1 (t, op) (by simp), fun e he => h3 e he (t, op) (by simp)⟩
  · rintro ⟨⟨h1, h2⟩, h3, h4⟩
    refine ⟨fun e he => ?_, h2, by simp, fun a ha b hb => ?_⟩
    · simp only [List.mem_append, List.mem_singleton] at he
      rcases he with he | rfl
      · exact h1 e he
      · exact h3
    · simp only [List.mem_singleton] at hb
      subst hb
      exact h4 a ha

theorem at_mem {E : Env} {m0 : Mdl} {h : List (Int × Op)} {u : Int} {P : Mdl → Op → Prop} (hu : At E m0 h u P) :
    ∃ op, (u, op) ∈ h := by
  obtain ⟨h1, op, h2, rfl, -⟩ := hu
  exact ⟨op, by simp⟩

/-- `last_match_time_` is the time of the last match, or of the creation. -/
theorem plast_spec (E : Env) (t0 : Int) (m0 : Mdl) (h0 : m0.p.last = t0) (h : List (Int × Op)) (ho : Ordered t0 h) :
    ((run E m0 h).p.last = t0 ∨ At E m0 h (run E m0 h).p.last MatchP) ∧
    t0 ≤ (run E m0 h).p.last ∧ ∀ u, At E m0 h u MatchP → u ≤ (run E m0 h).p.last := by
  induction h using List.reverseRecOn with
  | nil =>
    refine ⟨.inl h0, by rw [show run E m0 [] = m0 from rfl, h0], ?_⟩
    intro u hu
    obtain ⟨op, hm⟩ := at_mem hu
    cases hm
  | append_singleton h e ih =>
    obtain ⟨t, op⟩ := e
    obtain ⟨ho', h1, h2⟩ := ordered_snoc.1 ho
    obtain ⟨ha, hb, hc⟩ := ih ho'
    rw [run_snoc]
    rcases step_plast E (run E m0 h) t op with ⟨hm, hl⟩ | ⟨hm, hl⟩
    · rw [hl]
      refine ⟨.inr (at_snoc.2 (.inr ⟨rfl, hm⟩)), h1, fun u hu => ?_⟩
      rcases at_snoc.1 hu with hu | ⟨rfl, -⟩
      · obtain ⟨op', hm'⟩ := at_mem hu
        exact h2 _ hm'
      · exact Int.le_refl _
    · rw [hl]
      refine ⟨ha.imp id fun hx => at_snoc.2 (.inl hx), hb, fun u hu => ?_⟩
      rcases at_snoc.1 hu with hu | ⟨-, hu⟩
      · exact hc u hu
      · exact absurd hu hm

theorem slast_spec (E : Env) (t0 : Int) (m0 : Mdl) (h0 : m0.s.last = t0) (h : List (Int × Op)) (ho : Ordered t0 h) :
    ((run E m0 h).s.last = t0 ∨ At E m0 h (run E m0 h).s.last MatchS) ∧
    t0 ≤ (run E m0 h).s.last ∧ ∀ u, At E m0 h u MatchS → u ≤ (run E m0 h).s.last := by
  induction h using List.reverseRecOn with
  | nil =>
    refine ⟨.inl h0, by rw [show run E m0 [] = m0 from rfl, h0], ?_⟩
    intro u hu
    obtain ⟨op, hm⟩ := at_mem hu
    cases hm
  | append_singleton h e ih =>
    obtain ⟨t, op⟩ := e
    obtain ⟨ho', h1, h2⟩ := ordered_snoc.1 ho
    obtain ⟨ha, hb, hc⟩ := ih ho'
    rw [run_snoc]
    rcases step_slast E (run E m0 h) t op with ⟨hm, hl⟩ | ⟨hm, hl⟩
    · rw [hl]
      refine ⟨.inr (at_snoc.2 (.inr ⟨rfl, hm⟩)), h1, fun u hu => ?_⟩
      rcases at_snoc.1 hu with hu | ⟨rfl, -⟩
      · obtain ⟨op', hm'⟩ := at_mem hu
        exact h2 _ hm'
      · exact Int.le_refl _
    · rw [hl]
      refine ⟨ha.imp id fun hx => at_snoc.2 (.inl hx), hb, fun u hu => ?_⟩
      rcases at_snoc.1 hu with hu | ⟨-, hu⟩
      · exact hc u hu
      · exact absurd hu hm

theorem unmatchedP_iff {E : Env} {t0 : Int} {m0 : Mdl} (h0 : m0.p.last = t0) {h : List (Int × Op)} (ho : Ordered t0 h) (t : Int) :
    UnmatchedP E t0 m0 h t ↔ E.primThz < t - (run E m0 h).p.last := by
  obtain ⟨ha, hb, hc⟩ := plast_spec E t0 m0 h0 h ho
  constructor
  · rintro ⟨h1, h2⟩
    rcases ha with ha | ha
    · rw [ha]; exact h1
    · exact h2 _ ha
  · intro hl
    exact ⟨by omega, fun u hu => by have := hc u hu; omega⟩

theorem unmatchedS_iff {E : Env} {t0 : Int} {m0 : Mdl} (h0 : m0.s.last = t0) {h : List (Int × Op)} (ho : Ordered t0 h) (t : Int) :
    UnmatchedS E t0 m0 h t ↔ E.secThz < t - (run E m0 h).s.last := by
  obtain ⟨ha, hb, hc⟩ := slast_spec E t0 m0 h0 h ho
  constructor
  · rintro ⟨h1, h2⟩
    rcases ha with ha | ha
    · rw [ha]; exact h1
    · exact h2 _ ha
  · intro hl
    exact ⟨by omega, fun u hu => by have := hc u hu; omega⟩

/-! ## Views and controllers -/

/-- What holds of a model in any history. -/
structure Inv (E : Env) (m : Mdl) : Prop where
  pon : m.pin = true → (m.p.on = true ↔ E.pThr < m.pa.val)
  son : m.sin = true → (m.s.on = true ↔ E.sThr < m.sa.val)
  live : m.p.inv = false → m.s.inv = false → m.pr.val = .inf ∧ m.sr.val = .inf
  pdead : m.p.inv = true ∨ m.s.inv = true → m.pin = true → m.pr.val = .fin 0
  sdead : m.p.inv = true ∨ m.s.inv = true → m.sin = true → m.sr.val = .fin 0
  quiet : m.pr.changes = 0 ∧ m.sr.changes = 0
  pgone : m.pin = false → m.p.inv = true
  sgone : m.sin = false → m.s.inv = true

theorem Inv.new (E : Env) (t0 : Int) (a : Rat) (hs : 0 ≤ E.sThr) : Inv E (new E t0 a) := by
  refine ⟨fun _ => by simp [Lapse.new], fun _ => ?_, fun _ _ => ⟨rfl, rfl⟩, ?_, ?_, ⟨rfl, rfl⟩, ?_, ?_⟩
  · simp only [Lapse.new, Bool.false_eq_true, false_iff, not_lt]; exact hs
  all_goals simp [Lapse.new]

/-- Nothing but the times, the jobs, the activations asked for and the registration differ. -/
structure Same (m m' : Mdl) : Prop where
  pinv : m'.p.inv = m.p.inv
  sinv : m'.s.inv = m.s.inv
  pon : m'.p.on = m.p.on
  son : m'.s.on = m.s.on
  pa : m'.pa.val = m.pa.val
  sa : m'.sa.val = m.sa.val
  pr : m'.pr = m.pr
  sr : m'.sr = m.sr
  pin : m'.pin = m.pin
  sin : m'.sin = m.sin

theorem Same.inv {E : Env} {m m' : Mdl} (h : Same m m') (hi : Inv E m) : Inv E m' := by
  obtain ⟨h1, h2, h3, h4, h5, h6, h7, h8, h9, h10⟩ := h
  exact ⟨by rw [h9, h3, h5]; exact hi.pon, by rw [h10, h4, h6]; exact hi.son, by rw [h1, h2, h7, h8]; exact hi.live,
    by rw [h1, h2, h7, h9]; exact hi.pdead, by rw [h1, h2, h8, h10]; exact hi.sdead, by rw [h7, h8]; exact hi.quiet,
    by rw [h9, h1]; exact hi.pgone, by rw [h10, h2]; exact hi.sgone⟩

theorem Inv.same {E : Env} {m m' : Mdl} (hi : Inv E m) (h : Same m m') : Inv E m' := h.inv hi

theorem Inv.killP {E : Env} {m : Mdl} (hi : Inv E m) : Inv E (killP m) := by
  unfold Lapse.killP
  split
  · exact hi
  · exact ⟨hi.pon, hi.son, by simp, fun _ _ => rfl, fun _ _ => rfl, hi.quiet, by simp, hi.sgone⟩

theorem Inv.killS {E : Env} {m : Mdl} (hi : Inv E m) : Inv E (killS m) :=
  ⟨hi.pon, hi.son, by simp [Lapse.killS], fun _ _ => rfl, fun _ _ => rfl, hi.quiet, hi.pgone, by simp [Lapse.killS]⟩

theorem Inv.rateP {E : Env} {m : Mdl} (hi : Inv E m) (o : Out) : Inv E (rateP E m o) := by
  unfold Lapse.rateP
  split_ifs
  · exact hi
  · exact hi.same ⟨rfl, rfl, rfl, rfl, rfl, rfl, rfl, rfl, rfl, rfl⟩
  · exact hi.same ⟨rfl, rfl, rfl, rfl, rfl, rfl, rfl, rfl, rfl, rfl⟩
  · exact hi.same ⟨rfl, rfl, rfl, rfl, rfl, rfl, rfl, rfl, rfl, rfl⟩
  · exact Inv.killP (hi.same ⟨rfl, rfl, rfl, rfl, rfl, rfl, rfl, rfl, rfl, rfl⟩)

theorem Inv.rateS {E : Env} {m : Mdl} (hi : Inv E m) (r : Rat) : Inv E (rateS E m r) := by
  unfold Lapse.rateS
  split_ifs
  · exact hi
  · exact hi.same ⟨rfl, rfl, rfl, rfl, rfl, rfl, rfl, rfl, rfl, rfl⟩
  · exact hi.same ⟨rfl, rfl, rfl, rfl, rfl, rfl, rfl, rfl, rfl, rfl⟩
  · exact hi

theorem Inv.ratesP {E : Env} (outs : List Out) {m : Mdl} (hi : Inv E m) : Inv E (outs.foldl (Lapse.rateP E) m) := by
  induction outs generalizing m with
  | nil => exact hi
  | cons o l ih => exact ih (hi.rateP o)

theorem Inv.ratesS {E : Env} (outs : List Rat) {m : Mdl} (hi : Inv E m) : Inv E (outs.foldl (Lapse.rateS E) m) := by
  induction outs generalizing m with
  | nil => exact hi
  | cons o l ih => exact ih (hi.rateS o)

theorem Inv.checkP {E : Env} {m : Mdl} (hi : Inv E m) (t : Int) (b : Bool) : Inv E (checkP E t m b) := by
  unfold Lapse.checkP
  split_ifs
  · exact hi.same ⟨rfl, rfl, rfl, rfl, rfl, rfl, rfl, rfl, rfl, rfl⟩
  · exact hi.same ⟨rfl, rfl, rfl, rfl, rfl, rfl, rfl, rfl, rfl, rfl⟩
  · exact hi

theorem Inv.checkS {E : Env} {m : Mdl} (hi : Inv E m) (t : Int) (b : Bool) : Inv E (checkS E t m b) := by
  unfold Lapse.checkS
  split_ifs
  · exact hi.same ⟨rfl, rfl, rfl, rfl, rfl, rfl, rfl, rfl, rfl, rfl⟩
  · exact Inv.killS (hi.same ⟨rfl, rfl, rfl, rfl, rfl, rfl, rfl, rfl, rfl, rfl⟩)
  · exact hi

theorem activate_inv (thr : Rat) (c : Ctl) (a : Chan) : (activate thr c a).inv = c.inv := by
  unfold activate; split_ifs <;> rfl

theorem activate_jobs (thr : Rat) (c : Ctl) (a : Chan) : (activate thr c a).jobs = c.jobs := by
  unfold activate; split_ifs <;> rfl

theorem activate_on (thr : Rat) (c : Ctl) (a : Chan) (h : c.on = true ↔ thr < a.val) :
    (activate thr c a).on = true ↔ thr < (a.update exact).val := by
  unfold activate
  split_ifs with h1 h2 h2
  · simp [h2]
  · rw [h]; exact ⟨fun hx => absurd hx (not_lt.2 h1), fun hx => absurd hx h2⟩
  · rw [h]; exact ⟨fun _ => h2, fun _ => not_le.1 h1⟩
  · simp [h2]

theorem kept_inf {r : Res} (h : r.val = .inf) : kept false (r.update exact) = true ∧ r.update exact = r := by
  unfold Res.update kept
  rw [h]
  simp [h]

theorem kept_zero {r : Res} (h : r.val = .fin 0) (hc : r.changes = 0) : kept false (r.update exact) = false := by
  unfold Res.update kept
  rw [h]
  simp only [hc]
  simp [exact]

theorem updP_live (E : Env) {m : Mdl} (hi : Inv E m) (hp : m.p.inv = false) (hs : m.s.inv = false) :
    updP E m = { m with p := activate E.pThr m.p m.pa, pa := m.pa.update exact } := by
  have hpin : m.pin = true := by
    by_contra hx
    simp [hi.pgone (by simpa using hx)] at hp
  obtain ⟨h1, h2⟩ := kept_inf (hi.live hp hs).1
  unfold updP
  rw [if_pos hpin, if_pos h1, h2]

theorem updP_dead (E : Env) {m : Mdl} (hi : Inv E m) (hd : m.p.inv = true ∨ m.s.inv = true) :
    updP E m = { m with pin := false, p := { m.p with inv := true } } := by
  unfold updP
  by_cases hpin : m.pin = true
  · rw [if_pos hpin, if_neg (by rw [kept_zero (hi.pdead hd hpin) hi.quiet.1]; simp)]
  · have h1 : m.pin = false := by simpa using hpin
    have h2 := hi.pgone h1
    rw [if_neg hpin]
    obtain ⟨⟨a, b, c, d⟩, s, pa, sa, pr, sr, pin, sin, st⟩ := m
    simp only at h1 h2
    subst h1 h2
    rfl

theorem updS_live (E : Env) {m : Mdl} (hi : Inv E m) (hp : m.p.inv = false) (hs : m.s.inv = false) :
    updS E m = { m with s := activate E.sThr m.s m.sa, sa := m.sa.update exact } := by
  have hsin : m.sin = true := by
    by_contra hx
    simp [hi.sgone (by simpa using hx)] at hs
  obtain ⟨h1, h2⟩ := kept_inf (hi.live hp hs).2
  unfold updS
  rw [if_pos hsin, if_pos h1, h2]

theorem updS_dead (E : Env) {m : Mdl} (hi : Inv E m) (hd : m.p.inv = true ∨ m.s.inv = true) :
    updS E m = { m with sin := false, s := { m.s with inv := true } } := by
  unfold updS
  by_cases hsin : m.sin = true
  · rw [if_pos hsin, if_neg (by rw [kept_zero (hi.sdead hd hsin) hi.quiet.2]; simp)]
  · have h1 : m.sin = false := by simpa using hsin
    have h2 := hi.sgone h1
    rw [if_neg hsin]
    obtain ⟨p, ⟨a, b, c, d⟩, pa, sa, pr, sr, pin, sin, st⟩ := m
    simp only at h1 h2
    subst h1 h2
    rfl

theorem Inv.updP {E : Env} {m : Mdl} (hi : Inv E m) : Inv E (updP E m) := by
  by_cases hp : m.p.inv = true
  · rw [updP_dead E hi (.inl hp)]
    exact ⟨by simp, hi.son, by simp, by simp, fun _ => hi.sdead (.inl hp), hi.quiet, by simp, hi.sgone⟩
  · by_cases hs : m.s.inv = true
    · rw [updP_dead E hi (.inr hs)]
      exact ⟨by simp, hi.son, by simp, by simp, fun _ => hi.sdead (.inr hs), hi.quiet, by simp, hi.sgone⟩
    · simp only [Bool.not_eq_true] at hp hs
      rw [updP_live E hi hp hs]
      refine ⟨fun h => activate_on _ _ _ (hi.pon h), hi.son, fun _ _ => hi.live hp hs, ?_, ?_, hi.quiet, ?_, hi.sgone⟩
      · intro h; simp [activate_inv, hp, hs] at h
      · intro h; simp [activate_inv, hp, hs] at h
      · intro h; simp only [activate_inv]; exact hi.pgone h

theorem Inv.updS {E : Env} {m : Mdl} (hi : Inv E m) : Inv E (updS E m) := by
  by_cases hp : m.p.inv = true
  · rw [updS_dead E hi (.inl hp)]
    exact ⟨hi.pon, by simp, by simp, fun _ => hi.pdead (.inl hp), by simp, hi.quiet, hi.pgone, by simp⟩
  · by_cases hs : m.s.inv = true
    · rw [updS_dead E hi (.inr hs)]
      exact ⟨hi.pon, by simp, by simp, fun _ => hi.pdead (.inr hs), by simp, hi.quiet, hi.pgone, by simp⟩
    · simp only [Bool.not_eq_true] at hp hs
      rw [updS_live E hi hp hs]
      refine ⟨hi.pon, fun h => activate_on _ _ _ (hi.son h), fun _ _ => hi.live hp hs, ?_, ?_, hi.quiet, hi.pgone, ?_⟩
      · intro h; simp [activate_inv, hp, hs] at h
      · intro h; simp [activate_inv, hp, hs] at h
      · intro h; simp only [activate_inv]; exact hi.sgone h

theorem Inv.step {E : Env} {m : Mdl} (hi : Inv E m) (t : Int) (op : Op) : Inv E (step E m t op) := by
  cases op with
  | giveP f g =>
    simp only [Lapse.step]
    split_ifs
    · exact hi.killP
    · exact hi.same ⟨rfl, rfl, rfl, rfl, rfl, rfl, rfl, rfl, rfl, rfl⟩
    · exact hi
    · exact hi
  | giveS f g =>
    simp only [Lapse.step]
    split_ifs
    · exact hi.killS
    · exact hi.same ⟨rfl, rfl, rfl, rfl, rfl, rfl, rfl, rfl, rfl, rfl⟩
    · exact hi
    · exact hi
  | runP i outs =>
    have h' : Inv E { m with p := { m.p with jobs := m.p.jobs - 1 } } :=
      hi.same ⟨rfl, rfl, rfl, rfl, rfl, rfl, rfl, rfl, rfl, rfl⟩
    simp only [Lapse.step, reduceP]
    split_ifs
    · exact hi
    · exact h'.killP
    · exact h'
    · exact h'
    · exact (h'.ratesP outs).checkP t _
  | runS i outs =>
    have h' : Inv E { m with s := { m.s with jobs := m.s.jobs - 1 } } :=
      hi.same ⟨rfl, rfl, rfl, rfl, rfl, rfl, rfl, rfl, rfl, rfl⟩
    simp only [Lapse.step, reduceS]
    split_ifs
    · exact hi
    · exact h'.killS
    · exact h'
    · exact (h'.ratesS outs).checkS t _
  | timer o =>
    simp only [Lapse.step]
    split_ifs
    · exact hi.rateP o
    · exact hi
  | tellP o => exact hi.rateP o
  | tellS r => exact hi.rateS r
  | updP => exact hi.updP
  | updS => exact hi.updS

theorem Inv.run {E : Env} {m : Mdl} (hi : Inv E m) (h : List (Int × Op)) : Inv E (run E m h) := by
  induction h generalizing m with
  | nil => exact hi
  | cons e h ih => exact ih (hi.step e.1 e.2)

end Verif.Lapse
