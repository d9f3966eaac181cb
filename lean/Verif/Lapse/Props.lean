import Verif.Lapse.Lemmas
/-!
# C137 to C140: how models lapse
-/
namespace Verif.Lapse
open Verif.F32 Verif.ViewCtl

/-! ## C137 -/

/-- An environment with the horizons 10, and an input that does not match. -/
def env : Env := ⟨1 / 2, 0, 10, 10⟩
def miss : In := ⟨false, false, false, false⟩

theorem plast_new (E : Env) (t0 : Int) (a : Rat) : (new E t0 a).p.last = t0 := rfl
theorem slast_new (E : Env) (t0 : Int) (a : Rat) : (new E t0 a).s.last = t0 := rfl

theorem set_update (c : Chan) (hc : c.changes = 0) (ha : c.acc = 0) :
    ((c.set exact 0).update exact).val = 0 ∧ ((c.set exact 0).update exact).changes = 0 := by
  unfold Chan.set Chan.update
  simp only [exact, hc, ha]
  by_cases h : c.val = 0
  · simp [h]
  · simp [h, clamp]

theorem set_nonpos (c : Chan) (hc : c.changes = 0) (ha : c.acc = 0) (thr : Rat) (h0 : 0 ≤ thr) :
    ¬ thr < ((c.set exact 0).update exact).val := by
  rw [(set_update c hc ha).1]; exact not_lt.2 h0

/-- The unmatched input, when nothing matched for the horizon. -/
theorem runP_miss {E : Env} {m : Mdl} {t : Int} {i : In} (hj : m.p.jobs ≠ 0) (hok : i.ok) (hg : i.goal = false)
    (hh : i.hit = false) (hl : E.primThz < t - m.p.last) :
    step E m t (.runP i []) = { m with p := { m.p with jobs := m.p.jobs - 1 }, pa := m.pa.set exact 0 } := by
  obtain ⟨ho, hd⟩ := hok
  simp [step, hj, reduceP, ho, hd, hg, hh, checkP, hl]

/-- The secondary controller is not activated: after an idle time the model is active nowhere. -/
theorem C137_sleep_violated : ¬ C137_full ∧
    (run env (new env 0 1) [(20, .giveP true false), (20, .runP miss []), (20, .updP), (20, .updS)]).p.on = false ∧
    (run env (new env 0 1) [(20, .giveP true false), (20, .runP miss []), (20, .updP), (20, .updS)]).s.on = false := by
  have h1 : (run env (new env 0 1) [(20, .giveP true false), (20, .runP miss []), (20, .updP), (20, .updS)]).s.on = false := by
    decide +kernel
  refine ⟨fun hf => ?_, by decide +kernel, h1⟩
  have ho : Ordered 0 [((20 : Int), Op.giveP true false)] := ⟨by simp, by simp⟩
  have := (hf env 0 1 [(20, .giveP true false)] 20 miss (by simp [env]) (by simp [env])
    ⟨by simp, by simp⟩ (by decide +kernel) (by decide +kernel) (by decide +kernel) ⟨rfl, rfl⟩ rfl rfl
    ((unmatchedP_iff (plast_new _ _ _) ho 20).2 (by decide +kernel))).2
  simp only [List.cons_append, List.nil_append] at this
  rw [h1] at this
  cases this

/-- C137, the part that holds: a model that meets an unmatched input after a horizon without a match
sleeps in its primary group from the next update on, if nothing else was asked for it in the meantime; a
model with a match within the horizon is left as it is. Missing: it does not wake in its secondary
group. -/
theorem C137_sleep_partial (E : Env) (t0 : Int) (a : Rat) (h : List (Int × Op)) (t : Int) (i : In)
    (hp0 : 0 ≤ E.pThr) (hs0 : 0 ≤ E.sThr) (ho : Ordered t0 (h ++ [(t, Op.updP)]))
    (hal : (run E (new E t0 a) h).p.alive = true) (hj : (run E (new E t0 a) h).p.jobs ≠ 0)
    (hsi : (run E (new E t0 a) h).s.inv = false) (hok : i.ok) (hg : i.goal = false) (hh : i.hit = false) :
    (UnmatchedP E t0 (new E t0 a) h t → (run E (new E t0 a) h).pa.changes = 0 → (run E (new E t0 a) h).pa.acc = 0 →
      (run E (new E t0 a) (h ++ [(t, .runP i []), (t, .updP)])).p.on = false) ∧
    (¬ UnmatchedP E t0 (new E t0 a) h t →
      (run E (new E t0 a) (h ++ [(t, .runP i [])])).pa = (run E (new E t0 a) h).pa) := by
  obtain ⟨ho', -, -⟩ := ordered_snoc.1 ho
  have hi := (Inv.new E t0 a hs0).run h
  rw [unmatchedP_iff (plast_new E t0 a) ho' t]
  constructor
  · intro hl hc ha
    rw [show h ++ [(t, Op.runP i []), (t, Op.updP)] = (h ++ [(t, Op.runP i [])]) ++ [(t, Op.updP)] by simp, run_snoc, run_snoc]
    have hpi : (run E (new E t0 a) h).p.inv = false := by
      simp only [Ctl.alive, Bool.and_eq_true, Bool.not_eq_true'] at hal
      exact hal.1
    have hi' := hi.step t (.runP i [])
    have hx := runP_miss (E := E) (t := t) hj hok hg hh hl
    rw [show ∀ m, step E m t .updP = updP E m from fun _ => rfl]
    have hpi' : (step E (run E (new E t0 a) h) t (.runP i [])).p.inv = false := by rw [hx]; exact hpi
    have hsi' : (step E (run E (new E t0 a) h) t (.runP i [])).s.inv = false := by rw [hx]; exact hsi
    have hpin : (step E (run E (new E t0 a) h) t (.runP i [])).pin = true := by
      by_contra hn
      have := hi'.pgone (by simpa using hn)
      rw [hpi'] at this; cases this
    rw [updP_live E hi' hpi' hsi']
    have := activate_on E.pThr _ _ (hi'.pon hpin)
    rw [← Bool.not_eq_true]
    intro hon
    have h3 := this.1 hon
    rw [hx] at h3
    exact set_nonpos _ hc ha _ hp0 h3
  · intro hl
    rw [run_snoc]
    obtain ⟨ho1, hd1⟩ := hok
    simp [step, hj, reduceP, ho1, hd1, hg, hh, checkP, hl]

/-- No report from another model about this one. -/
def NoTell : Op → Prop
  | .tellP _ => False
  | .tellS _ => False
  | _ => True

/-- Active nowhere, no reduction job, no activation asked for. -/
structure Dormant (E : Env) (m : Mdl) : Prop where
  pon : m.p.on = false
  son : m.s.on = false
  pjobs : m.p.jobs = 0
  sjobs : m.s.jobs = 0
  pa : m.pa.changes = 0 ∧ m.pa.val ≤ E.pThr
  sa : m.sa.changes = 0 ∧ m.sa.val ≤ E.sThr

theorem update_quiet {c : Chan} (h : c.changes = 0) : (c.update exact).val = c.val ∧ (c.update exact).changes = 0 := by
  unfold Chan.update
  simp [h]

theorem activate_quiet {thr : Rat} {c : Ctl} {a : Chan} (h : a.changes = 0) (h' : a.val ≤ thr) : activate thr c a = c := by
  unfold activate
  rw [if_pos h', if_neg]
  rw [(update_quiet h).1]
  exact not_lt.2 h'

theorem Dormant.step {E : Env} {m : Mdl} (h : Dormant E m) (t : Int) {op : Op} (ht : NoTell op) :
    Dormant E (step E m t op) ∧ (Lapse.step E m t op).status = m.status := by
  have hp : m.p.alive = false := by simp [Ctl.alive, h.pon]
  have hs : m.s.alive = false := by simp [Ctl.alive, h.son]
  cases op with
  | giveP f g => simp only [Lapse.step, hp]; exact ⟨h, rfl⟩
  | giveS f g => simp only [Lapse.step, hs]; exact ⟨h, rfl⟩
  | runP i outs => simp only [Lapse.step, h.pjobs, if_true]; exact ⟨h, trivial⟩
  | runS i outs => simp only [Lapse.step, h.sjobs, if_true]; exact ⟨h, trivial⟩
  | timer o => simp only [Lapse.step, hp]; exact ⟨h, rfl⟩
  | tellP o => cases ht
  | tellS r => cases ht
  | updP =>
    simp only [Lapse.step, updP]
    split_ifs
    · rw [activate_quiet h.pa.1 h.pa.2]
      refine ⟨⟨h.pon, h.son, h.pjobs, h.sjobs, ?_, h.sa⟩, rfl⟩
      obtain ⟨h1, h2⟩ := update_quiet h.pa.1
      exact ⟨h2, by rw [h1]; exact h.pa.2⟩
    · exact ⟨⟨h.pon, h.son, h.pjobs, h.sjobs, h.pa, h.sa⟩, rfl⟩
    · exact ⟨h, rfl⟩
  | updS =>
    simp only [Lapse.step, updS]
    split_ifs
    · rw [activate_quiet h.sa.1 h.sa.2]
      refine ⟨⟨h.pon, h.son, h.pjobs, h.sjobs, h.pa, ?_⟩, rfl⟩
      obtain ⟨h1, h2⟩ := update_quiet h.sa.1
      exact ⟨h2, by rw [h1]; exact h.sa.2⟩
    · exact ⟨⟨h.pon, h.son, h.pjobs, h.sjobs, h.pa, h.sa⟩, rfl⟩
    · exact ⟨h, rfl⟩

theorem Dormant.run {E : Env} {m : Mdl} (h : Dormant E m) (hs : List (Int × Op)) (ht : ∀ e ∈ hs, NoTell e.2) :
    Dormant E (run E m hs) ∧ (Lapse.run E m hs).status = m.status := by
  induction hs generalizing m with
  | nil => exact ⟨h, rfl⟩
  | cons e l ih =>
    obtain ⟨h1, h2⟩ := h.step e.1 (ht e (by simp))
    obtain ⟨h3, h4⟩ := ih h1 fun x hx => ht x (by simp [hx])
    exact ⟨h3, h4.trans h2⟩

/-- The model that lapses from its primary group is lost: whatever happens later, unless another model
reports about it, it is active in neither group, and it stays registered as it is, so that it is not
learned again either. -/
theorem C137_lost (E : Env) (t0 : Int) (a : Rat) (h : List (Int × Op)) (t : Int) (i : In)
    (hp0 : 0 ≤ E.pThr) (hs0 : 0 ≤ E.sThr) (ho : Ordered t0 (h ++ [(t, Op.updP)]))
    (hal : (run E (new E t0 a) h).p.alive = true) (hj : (run E (new E t0 a) h).p.jobs = 1)
    (hsi : (run E (new E t0 a) h).s.inv = false) (hsj : (run E (new E t0 a) h).s.jobs = 0)
    (hso : (run E (new E t0 a) h).s.on = false) (hok : i.ok) (hg : i.goal = false) (hh : i.hit = false)
    (hu : UnmatchedP E t0 (new E t0 a) h t)
    (hpa : (run E (new E t0 a) h).pa.changes = 0 ∧ (run E (new E t0 a) h).pa.acc = 0)
    (hsa : (run E (new E t0 a) h).sa.changes = 0) (later : List (Int × Op)) (hn : ∀ e ∈ later, NoTell e.2) :
    (run E (new E t0 a) (h ++ [(t, .runP i []), (t, .updP)] ++ later)).p.on = false ∧
    (run E (new E t0 a) (h ++ [(t, .runP i []), (t, .updP)] ++ later)).s.on = false ∧
    (run E (new E t0 a) (h ++ [(t, .runP i []), (t, .updP)] ++ later)).status = (run E (new E t0 a) h).status := by
  obtain ⟨ho', -, -⟩ := ordered_snoc.1 ho
  have hi := (Inv.new E t0 a hs0).run h
  have hsleep := (C137_sleep_partial E t0 a h t i hp0 hs0 ho hal (by rw [hj]; decide) hsi hok hg hh).1 hu hpa.1 hpa.2
  have hx := runP_miss (E := E) (t := t) (by rw [hj]; decide) hok hg hh ((unmatchedP_iff (plast_new E t0 a) ho' t).1 hu)
  have hpi : (run E (new E t0 a) h).p.inv = false := by
    simp only [Ctl.alive, Bool.and_eq_true, Bool.not_eq_true'] at hal
    exact hal.1
  have hi' := hi.step t (.runP i [])
  have hpi' : (step E (run E (new E t0 a) h) t (.runP i [])).p.inv = false := by rw [hx]; exact hpi
  have hsi' : (step E (run E (new E t0 a) h) t (.runP i [])).s.inv = false := by rw [hx]; exact hsi
  have hy : run E (new E t0 a) (h ++ [(t, .runP i []), (t, .updP)]) = updP E (step E (run E (new E t0 a) h) t (.runP i [])) := by
    rw [run_append]; rfl
  have hsin : (run E (new E t0 a) h).sin = true := by
    by_contra hn'
    have := hi.sgone (by simpa using hn')
    rw [hsi] at this; cases this
  rw [run_append]
  have hd : Dormant E (run E (new E t0 a) (h ++ [(t, .runP i []), (t, .updP)])) := by
    refine ⟨hsleep, ?_, ?_, ?_, ?_, ?_⟩
    all_goals rw [hy, updP_live E hi' hpi' hsi', hx]
    · exact hso
    · simp [activate_jobs, hj]
    · exact hsj
    · exact ⟨(set_update _ hpa.1 hpa.2).2, by rw [(set_update _ hpa.1 hpa.2).1]; exact hp0⟩
    · refine ⟨hsa, ?_⟩
      have := (hi.son hsin).not
      rw [hso] at this
      exact not_lt.1 (this.1 (by simp))
  obtain ⟨h1, h2⟩ := hd.run later hn
  refine ⟨h1.pon, h1.son, h2.trans ?_⟩
  rw [hy, updP_live E hi' hpi' hsi', hx]

theorem C137_nonvacuous :
    (run env (new env 0 1) [(20, .giveP true false)]).p.alive = true ∧
    (run env (new env 0 1) [(20, .giveP true false)]).p.jobs = 1 ∧
    (run env (new env 0 1) [(20, .giveP true false)]).pa.changes = 0 ∧
    UnmatchedP env 0 (new env 0 1) [(20, .giveP true false)] 20 ∧
    ¬ UnmatchedP env 0 (new env 0 1) [(5, .giveP true false), (5, .runP { miss with hit := true } []), (8, .giveP true false)] 12 := by
  refine ⟨by decide +kernel, by decide +kernel, by decide +kernel, ?_, ?_⟩
  · exact (unmatchedP_iff (plast_new _ _ _) ⟨by simp, by simp⟩ 20).2 (by decide +kernel)
  · rw [unmatchedP_iff (plast_new _ _ _) ⟨by simp, by simp⟩ 12]
    decide +kernel

/-! ## C138 -/

/-- The time of the last match is not renewed when the model becomes active in a group: it leaves, or is
forgotten, at its first unmatched input. -/
theorem C138_idle_violated : ¬ C138_full ∧
    (step env (run env (new env 0 1) [(1, .tellP ⟨false, 1 / 4, true⟩), (2, .updP), (2, .updS), (30, .tellS (3 / 4)), (30, .updP),
      (30, .updS), (31, .giveP true false)]) 31 (.runP miss [])).pa.changes = 1 ∧
    (run env (new env 0 1) [(30, .tellP ⟨false, 1 / 4, true⟩), (30, .updS), (31, .giveS true false)]).status = .known ∧
    (step env (run env (new env 0 1) [(30, .tellP ⟨false, 1 / 4, true⟩), (30, .updS), (31, .giveS true false)]) 31
      (.runS miss [])).status = .forgotten := by
  refine ⟨fun hf => ?_, by decide +kernel, by decide +kernel, by decide +kernel⟩
  have h1 := (hf env 0 1 [(1, .tellP ⟨false, 1 / 4, true⟩), (2, .updP), (2, .updS), (30, .tellS (3 / 4)), (30, .updP),
      (30, .updS), (31, .giveP true false)] 31 miss ⟨by simp, by simp⟩).1 (fun he => by
    have := congrArg Chan.changes he
    revert this
    decide +kernel)
  have := h1.2 30 ⟨[(1, .tellP ⟨false, 1 / 4, true⟩), (2, .updP), (2, .updS), (30, .tellS (3 / 4))], .updP,
    [(30, .updS), (31, .giveP true false)], rfl, rfl, by decide +kernel, by decide +kernel⟩
  revert this
  decide +kernel

/-- A second way: forgotten soon after waking in the secondary group. -/
theorem C138_forgotten : ¬ AwakeS env (new env 0 1) [(30, .tellP ⟨false, 1 / 4, true⟩), (30, .updS), (31, .giveS true false)] 31 := by
  intro h
  have := h 30 ⟨[(30, .tellP ⟨false, 1 / 4, true⟩)], .updS, [(31, .giveS true false)], rfl, rfl, by decide +kernel, by decide +kernel⟩
  revert this
  decide +kernel

/-- C138, the part that holds: no model leaves its primary group, or is forgotten, by an unmatched input
if an input matched there within the horizon. Missing: the time since it became active there. -/
theorem C138_idle_partial (E : Env) (t0 : Int) (a : Rat) (h : List (Int × Op)) (t : Int) (i : In)
    (ho : Ordered t0 (h ++ [(t, Op.updP)])) :
    ((step E (run E (new E t0 a) h) t (.runP i [])).pa ≠ (run E (new E t0 a) h).pa → UnmatchedP E t0 (new E t0 a) h t) ∧
    ((step E (run E (new E t0 a) h) t (.runS i [])).status ≠ (run E (new E t0 a) h).status →
      UnmatchedS E t0 (new E t0 a) h t) := by
  obtain ⟨ho', -, -⟩ := ordered_snoc.1 ho
  rw [unmatchedP_iff (plast_new E t0 a) ho' t, unmatchedS_iff (slast_new E t0 a) ho' t]
  constructor
  · intro hne
    by_contra hl
    apply hne
    have hx : ∀ (m : Mdl) (b : Bool), ¬ E.primThz < t - m.p.last → (checkP E t m b).pa = m.pa := by
      intro m b hl
      unfold checkP
      split_ifs <;> rfl
    simp only [step, reduceP, List.foldl_nil]
    split_ifs
    · rfl
    · rw [killP_pa]
    · rfl
    · rfl
    · exact hx _ _ hl
  · intro hne
    by_contra hl
    apply hne
    have hx : ∀ (m : Mdl) (b : Bool), ¬ E.secThz < t - m.s.last → (checkS E t m b).status = m.status := by
      intro m b hl
      unfold checkS
      split_ifs <;> rfl
    simp only [step, reduceS, List.foldl_nil]
    split_ifs
    · rfl
    · rfl
    · rfl
    · exact hx _ _ hl

/-- A model that is forgotten by a single input: it was idle in the secondary group and the input did not
match; and that is enough. -/
theorem C138_forgets (E : Env) (t0 : Int) (a : Rat) (h : List (Int × Op)) (t : Int) (i : In)
    (ho : Ordered t0 (h ++ [(t, Op.updP)])) (hj : (run E (new E t0 a) h).s.jobs ≠ 0)
    (hk : (run E (new E t0 a) h).status = .known) (hok : i.ok) (hh : i.hit = false) :
    (step E (run E (new E t0 a) h) t (.runS i [])).status = .forgotten ↔ UnmatchedS E t0 (new E t0 a) h t := by
  obtain ⟨ho', -, -⟩ := ordered_snoc.1 ho
  obtain ⟨h1, h2⟩ := hok
  rw [unmatchedS_iff (slast_new E t0 a) ho' t]
  simp only [step, hj, reduceS, h1, h2, hh, checkS, List.foldl_nil, if_false, Bool.false_eq_true]
  split_ifs with hl
  · simp [killS, hk, Status.timeout, hl]
  · simp [hk, hl]

theorem C138_nonvacuous :
    (step env (run env (new env 0 1) [(20, .giveP true false)]) 20 (.runP miss [])).pa.changes ≠
      (run env (new env 0 1) [(20, .giveP true false)]).pa.changes ∧
    (run env (new env 0 1) [(3, .tellP ⟨false, 1 / 4, true⟩), (3, .updS), (20, .giveS true false)]).s.jobs = 1 ∧
    UnmatchedS env 0 (new env 0 1) [(3, .tellP ⟨false, 1 / 4, true⟩), (3, .updS), (20, .giveS true false)] 20 := by
  refine ⟨by decide +kernel, by decide +kernel, ?_⟩
  exact (unmatchedS_iff (slast_new _ _ _) ⟨by simp, by simp⟩ 20).2 (by decide +kernel)

/-! ## C139 -/

/-- A model killed because its requirement is gone stays registered. -/
theorem C139_gone_violated : ¬ C139_full ∧
    (run env (new env 0 1) [(1, .giveP true false), (1, .runP { miss with orphan := true } []), (2, .updP), (2, .updS)]).pin = false ∧
    (run env (new env 0 1) [(1, .giveP true false), (1, .runP { miss with orphan := true } []), (2, .updP), (2, .updS)]).status = .known := by
  have h1 : (run env (new env 0 1) [(1, .giveP true false), (1, .runP { miss with orphan := true } []), (2, .updP), (2, .updS)]).status = .known := by
    decide +kernel
  refine ⟨fun hf => ?_, by decide +kernel, h1⟩
  exact (hf env 0 1 [(1, .giveP true false), (1, .runP { miss with orphan := true } [])] 2 (by simp [env])
    (.inl (by decide +kernel))).2.2.2.2 h1

theorem rateP_status (E : Env) (m : Mdl) (o : Out) (h : m.status ≠ .known) : (rateP E m o).status ≠ .known := by
  unfold rateP; split_ifs <;> simp [h]

theorem rateS_status (E : Env) (m : Mdl) (r : Rat) : (rateS E m r).status = m.status := by
  unfold rateS; split_ifs <;> rfl

theorem ratesP_status (E : Env) (outs : List Out) (m : Mdl) (h : m.status ≠ .known) : (outs.foldl (rateP E) m).status ≠ .known := by
  induction outs generalizing m with
  | nil => exact h
  | cons o l ih => exact ih _ (rateP_status E m o h)

theorem ratesS_status (E : Env) (outs : List Rat) (m : Mdl) : (outs.foldl (rateS E) m).status = m.status := by
  induction outs generalizing m with
  | nil => rfl
  | cons o l ih => exact (ih _).trans (rateS_status E m o)

theorem timeout_ne {s : Status} : s.timeout ≠ .known := by cases s <;> simp [Status.timeout]

/-- A model that is no longer known does not become known again. -/
theorem step_status (E : Env) (m : Mdl) (t : Int) (op : Op) (h : m.status ≠ .known) : (step E m t op).status ≠ .known := by
  cases op with
  | giveP f g => simp only [step]; split_ifs <;> simp [h]
  | giveS f g => simp only [step]; split_ifs <;> simp [killS, h]
  | runP i outs =>
    simp only [step, reduceP, checkP]
    split_ifs <;> first | simp [h]; done | exact ratesP_status E outs _ h
  | runS i outs =>
    simp only [step, reduceS, checkS]
    split_ifs <;> first | simp [killS, h]; done | (simp only [killS, ratesS_status]; first | exact h | exact timeout_ne)
  | timer o => simp only [step]; split_ifs; exacts [rateP_status E m o h, h]
  | tellP o => exact rateP_status E m o h
  | tellS r => simp only [step]; rw [rateS_status]; exact h
  | updP => simp only [step, updP]; split_ifs <;> exact h
  | updS => simp only [step, updS]; split_ifs <;> exact h

theorem run_status (E : Env) (h : List (Int × Op)) (m : Mdl) (hm : m.status ≠ .known) : (run E m h).status ≠ .known := by
  induction h generalizing m with
  | nil => exact hm
  | cons e l ih => exact ih _ (step_status E m e.1 e.2 hm)

/-- C139, the part that holds: a model one of whose controllers was killed loses both views at the next
updates of its groups, and then neither controller takes inputs. Missing: a model killed because its
requirement or a part of it is gone stays registered as known; see `C139_unknown` for the others. -/
theorem C139_gone_partial (E : Env) (t0 : Int) (a : Rat) (h : List (Int × Op)) (t : Int) (hs0 : 0 ≤ E.sThr)
    (hd : (run E (new E t0 a) h).p.inv = true ∨ (run E (new E t0 a) h).s.inv = true) :
    (run E (new E t0 a) (h ++ [(t, .updP), (t, .updS)])).pin = false ∧
    (run E (new E t0 a) (h ++ [(t, .updP), (t, .updS)])).sin = false ∧
    (run E (new E t0 a) (h ++ [(t, .updP), (t, .updS)])).p.inv = true ∧
    (run E (new E t0 a) (h ++ [(t, .updP), (t, .updS)])).s.inv = true ∧
    (∀ fact gone, step E (run E (new E t0 a) (h ++ [(t, .updP), (t, .updS)])) t (.giveP fact gone) =
      run E (new E t0 a) (h ++ [(t, .updP), (t, .updS)])) ∧
    (∀ fact gone, step E (run E (new E t0 a) (h ++ [(t, .updP), (t, .updS)])) t (.giveS fact gone) =
      run E (new E t0 a) (h ++ [(t, .updP), (t, .updS)])) := by
  have hi := (Inv.new E t0 a hs0).run h
  have hy : run E (new E t0 a) (h ++ [(t, .updP), (t, .updS)]) = updS E (updP E (run E (new E t0 a) h)) := by
    rw [run_append]; rfl
  rw [hy]
  have h1 := updP_dead E hi hd
  have h2 := updS_dead E hi.updP (.inl (by rw [h1]))
  rw [h2, h1]
  refine ⟨rfl, rfl, rfl, rfl, fun f g => ?_, fun f g => ?_⟩ <;> simp [step, Ctl.alive]

/-- Killing by a bad rating. -/
theorem rateP_kills (E : Env) (m : Mdl) (o : Out) (hp : m.p.inv = false) (hk : (rateP E m o).p.inv = true) :
    (rateP E m o).status = .refused := by
  unfold rateP at hk ⊢
  split_ifs at hk ⊢ <;> simp_all

theorem rateP_of_dead (E : Env) (m : Mdl) (o : Out) (hp : m.p.inv = true) : rateP E m o = m := by
  unfold rateP; rw [if_pos hp]

theorem ratesP_kills (E : Env) (outs : List Out) (m : Mdl) (hp : m.p.inv = false)
    (hk : (outs.foldl (rateP E) m).p.inv = true) : (outs.foldl (rateP E) m).status = .refused := by
  induction outs generalizing m with
  | nil => rw [List.foldl_nil, hp] at hk; cases hk
  | cons o l ih =>
    rw [List.foldl_cons] at hk ⊢
    by_cases h1 : (rateP E m o).p.inv = true
    · have : ∀ (l : List Out), l.foldl (rateP E) (rateP E m o) = rateP E m o := by
        intro l
        induction l with
        | nil => rfl
        | cons o' l ih' => rw [List.foldl_cons, rateP_of_dead E _ o' h1, ih']
      rw [this]
      exact rateP_kills E m o hp h1
    · exact ih _ (by simpa using h1) hk

/-- The input does not find the controller without requirement, nor one of its parts gone. -/
def Own : Op → Prop
  | .giveP _ gone => gone = false
  | .giveS _ gone => gone = false
  | .runP i _ => i.orphan = false
  | .runS i _ => i.orphan = false
  | _ => True

/-- C139: a model that is killed for its own sake is refused if it failed, forgotten if it was idle, and
never known again. -/
theorem C139_unknown (E : Env) (t0 : Int) (a : Rat) (h : List (Int × Op)) (t : Int) (op : Op) (later : List (Int × Op))
    (hs0 : 0 ≤ E.sThr) (hown : Own op)
    (hp : (run E (new E t0 a) h).p.inv = false) (hs : (run E (new E t0 a) h).s.inv = false)
    (hst : (run E (new E t0 a) h).status = .known)
    (hk : (run E (new E t0 a) (h ++ [(t, op)])).p.inv = true ∨ (run E (new E t0 a) (h ++ [(t, op)])).s.inv = true) :
    ((∃ i outs, op = .runS i outs ∧ (run E (new E t0 a) (h ++ [(t, op)])).status = .forgotten) ∨
      ((∀ i outs, op ≠ .runS i outs) ∧ (run E (new E t0 a) (h ++ [(t, op)])).status = .refused)) ∧
    (run E (new E t0 a) (h ++ [(t, op)] ++ later)).status ≠ .known := by
  have hi := (Inv.new E t0 a hs0).run h
  have key : (∃ i outs, op = .runS i outs ∧ (run E (new E t0 a) (h ++ [(t, op)])).status = .forgotten) ∨
      ((∀ i outs, op ≠ .runS i outs) ∧ (run E (new E t0 a) (h ++ [(t, op)])).status = .refused) := by
    rw [run_snoc] at hk ⊢
    generalize run E (new E t0 a) h = m at *
    cases op with
    | giveP f g =>
      change g = false at hown
      exfalso
      simp only [step, hown] at hk
      split_ifs at hk <;> simp_all
    | giveS f g =>
      change g = false at hown
      exfalso
      simp only [step, hown] at hk
      split_ifs at hk <;> simp_all
    | runP i outs =>
      change i.orphan = false at hown
      right
      refine ⟨by simp, ?_⟩
      have hr := ratesP_last E outs { m with p := { m.p with jobs := m.p.jobs - 1 } }
      have hr2 := ratesP_kills E outs { m with p := { m.p with jobs := m.p.jobs - 1 } } hp
      simp only [step, reduceP, hown, checkP] at hk ⊢
      split_ifs at hk ⊢ <;> simp_all
    | runS i outs =>
      change i.orphan = false at hown
      left
      refine ⟨i, outs, rfl, ?_⟩
      have hr := ratesS_last E outs { m with s := { m.s with jobs := m.s.jobs - 1 } }
      have hr2 := ratesS_status E outs { m with s := { m.s with jobs := m.s.jobs - 1 } }
      simp only [step, reduceS, hown, checkS] at hk ⊢
      split_ifs at hk ⊢ <;> simp_all [killS, Status.timeout]
    | timer o =>
      right
      refine ⟨by simp, ?_⟩
      have hr := rateP_last E m o
      have hr2 := rateP_kills E m o hp
      simp only [step] at hk ⊢
      split_ifs at hk ⊢ <;> simp_all
    | tellP o =>
      right
      refine ⟨by simp, ?_⟩
      have hr := rateP_last E m o
      have hr2 := rateP_kills E m o hp
      simp only [step] at hk ⊢
      simp_all
    | tellS r =>
      exfalso
      have hr := rateS_last E m r
      simp only [step] at hk
      simp_all
    | updP =>
      exfalso
      simp only [step, updP_live E hi hp hs, activate_inv] at hk
      simp_all
    | updS =>
      exfalso
      simp only [step, updS_live E hi hp hs, activate_inv] at hk
      simp_all
  refine ⟨key, ?_⟩
  rw [run_append]
  refine run_status E later _ ?_
  rcases key with ⟨_, _, -, h1⟩ | ⟨-, h1⟩ <;> rw [h1] <;> simp

theorem C139_nonvacuous :
    (run env (new env 0 1) [(1, .tellP ⟨false, 1 / 4, false⟩)]).p.inv = true ∧
    (run env (new env 0 1) [(1, .tellP ⟨false, 1 / 4, false⟩)]).status = .refused ∧
    (run env (new env 0 1) [(3, .tellP ⟨false, 1 / 4, true⟩), (3, .updS), (20, .giveS true false), (20, .runS miss [])]).s.inv = true ∧
    (run env (new env 0 1) [(3, .tellP ⟨false, 1 / 4, true⟩), (3, .updS), (20, .giveS true false), (20, .runS miss [])]).p.inv = false := by
  refine ⟨by decide +kernel, by decide +kernel, by decide +kernel, by decide +kernel⟩

end Verif.Lapse
