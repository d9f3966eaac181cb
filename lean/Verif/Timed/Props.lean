import Verif.Timed.Spec
/-!
# C159: timed jobs are done when they are asked for
-/
namespace Verif.Timed

/-- What the log says is as it should be. -/
structure Good (l : List Ev) : Prop where
  timely : ∀ post pre t, l = post ++ .run t :: pre → Time (due pre) t
  asks : ∀ post pre t, l = post ++ .run t :: pre → ∃ p x, post = p ++ [.ask x]
  lags : ∀ post pre n, l = post ++ .report n :: pre → 0 < n ∧ ∃ x t old, pre = .ask x :: .run t :: old ∧ due old = some (t - n)

theorem good_init (t : Option Int) : Good [.ask t] := by
  refine ⟨?_, ?_, ?_⟩ <;>
  · intro post pre t e
    cases post with
    | nil => cases e
    | cons a post => cases post <;> cases e

theorem good_run {l : List Ev} (h : Good l) {t : Int} {x : Option Int} (ht : Time (due l) t) : Good (.ask x :: .run t :: l) := by
  refine ⟨?_, ?_, ?_⟩
  · intro post pre u e
    match post, e with
    | [], e => cases e
    | [a], e => cases e; exact ht
    | a :: b :: post, e => cases e; exact h.timely post pre u rfl
  · intro post pre u e
    match post, e with
    | [], e => cases e
    | [a], e => cases e; exact ⟨[], x, rfl⟩
    | a :: b :: post, e =>
      cases e
      obtain ⟨p, y, hp⟩ := h.asks post pre u rfl
      exact ⟨.ask x :: .run t :: p, y, by rw [hp]; rfl⟩
  · intro post pre u e
    match post, e with
    | [], e => cases e
    | [a], e => cases e
    | a :: b :: post, e => cases e; exact h.lags post pre u rfl

theorem good_report {l : List Ev} (h : Good l) {t n : Int} {x : Option Int} (ht : due l = some (t - n)) (hn : 0 < n) : Good (.report n :: .ask x :: .run t :: l) := by
  have g := good_run h (t := t) (x := x) ⟨_, ht, .inr (by omega)⟩
  refine ⟨?_, ?_, ?_⟩
  · intro post pre u e
    match post, e with
    | [], e => cases e
    | a :: post, e => exact g.timely post pre u (by simpa using (List.cons.inj e).2)
  · intro post pre u e
    match post, e with
    | [], e => cases e
    | a :: post, e =>
      obtain ⟨p, y, hp⟩ := g.asks post pre u (by simpa using (List.cons.inj e).2)
      exact ⟨a :: p, y, by rw [hp]; rfl⟩
  · intro post pre u e
    match post, e with
    | [], e => cases e; exact ⟨hn, x, t, l, rfl, ht⟩
    | a :: post, e => exact g.lags post pre u (by simpa using (List.cons.inj e).2)

theorem Excused.more {as : List Act} (h : Excused as) (bs : List Act) : Excused (as ++ bs) := by
  rcases h with h | ⟨e, h, k⟩
  · exact .inl (List.mem_append_left _ h)
  · exact .inr ⟨e, List.mem_append_left _ h, k⟩

/-- Where the job may be.  `pun`: timers do not fire early; `once`: the job never gives a next time (otherwise: it always gives one). -/
def At (pun once : Bool) (as : List Act) (s : State) : Loc → Prop
  | .got t => due s.log = some t ∧ (pun = true ∨ once = true)
  | .again n => n ≠ 0 ∧ due s.log = some n ∧ pun = true
  | .timer d t => due s.log = some d ∧ (t = d ∨ t = 0 ∧ pun = true)
  | .woken t => ∃ d, due s.log = some d ∧ (t = d ∨ t = 0 ∧ pun = true ∧ d ≤ s.clock)
  | .redo t => (t ≠ 0 ∧ due s.log = some t ∧ (once = true → s.running = false)) ∨ t = 0 ∧ (due s.log = none ∨ Excused as)
  | .out => due s.log = none ∨ Excused as

structure Inv (pun once : Bool) (as : List Act) (s : State) : Prop where
  good : Good s.log
  stopped : s.running = false → .stop ∈ as
  at_ : At pun once as s s.loc

/-- What is asked of the steps. -/
def Ok (pun once : Bool) (s : State) : Act → Prop
  | .go e => (once = true → e.ans.next = none) ∧ (once = false → e.ans.next ≠ none)
  | .fire => pun = true → match s.loc with | .timer d _ => d ≤ s.clock | _ => True
  | _ => True

theorem asked_zero : asked 0 = none := rfl
theorem asked_ne {n : Int} (h : n ≠ 0) : asked n = some n := by simp only [asked, if_neg h]

theorem due_did {s : State} {a : Ans} {lag : Option Int} : due (did s a lag).log = asked (a.next.getD 0) := by
  cases lag <;> rfl

theorem due_didD {s : State} {t : Int} {a : Ans} {lag : Option Int} : due (didD s t a lag).log = a.next.bind asked := by
  cases lag <;> rfl

theorem inv_did {pun once : Bool} {as : List Act} {s : State} {e : Env} {lag : Option Int} (hr : s.running = false → .stop ∈ as)
    (hg : Good (did s e.ans lag).log) (hp : pun = true ∨ once = true) (ok : Ok pun once s (.go e)) : Inv pun once (as ++ [.go e]) (did s e.ans lag) := by
  refine ⟨hg, fun h => List.mem_append_left _ (hr h), ?_⟩
  by_cases hn : e.ans.next.getD 0 = 0
  · have hl : (did s e.ans lag).loc = .out := by simp only [did]; rw [if_neg (by simp [hn])]
    rw [hl]
    exact .inl (by rw [due_did, hn]; rfl)
  · by_cases hb : e.ans.run = true
    · have hl : (did s e.ans lag).loc = .again (e.ans.next.getD 0) := by simp only [did]; rw [if_pos ⟨hn, hb⟩]
      rw [hl]
      refine ⟨hn, by rw [due_did, asked_ne hn], ?_⟩
      rcases hp with hp | hp
      · exact hp
      · rw [ok.1 hp] at hn; exact absurd rfl hn
    · have hl : (did s e.ans lag).loc = .out := by simp only [did]; rw [if_neg (fun k => hb k.2)]
      rw [hl]
      exact .inr (.inr ⟨e, by simp, .inr (by simpa using hb)⟩)

theorem inv_didD {pun once : Bool} {as : List Act} {s : State} {e : Env} {t : Int} {lag : Option Int} (hr : s.running = false → .stop ∈ as)
    (hg : Good (didD s t e.ans lag).log) (ht : t = 0 ∨ once = false) (ok : Ok pun once s (.go e)) : Inv pun once (as ++ [.go e]) (didD s t e.ans lag) := by
  refine ⟨hg, fun h => List.mem_append_left _ (hr h), ?_⟩
  show At _ _ _ _ (.redo (e.ans.next.getD t))
  cases hn : e.ans.next with
  | none =>
    have h0 : t = 0 := by
      rcases ht with ht | ht
      · exact ht
      · exact absurd hn (ok.2 ht)
    exact .inr ⟨by simp [h0], .inl (by rw [due_didD, hn]; rfl)⟩
  | some n =>
    have ho : once = false := by
      cases once with
      | false => rfl
      | true => have := ok.1 rfl; rw [hn] at this; cases this
    by_cases h0 : n = 0
    · exact .inr ⟨by simp [h0], .inl (by rw [due_didD, hn, h0]; rfl)⟩
    · exact .inl ⟨by simpa using h0, by rw [due_didD, hn]; exact asked_ne h0, fun k => by rw [ho] at k; cases k⟩

theorem inv_out {pun once : Bool} {as : List Act} {s : State} {e : Env} (h : Inv pun once as s) (ha : e.alive = false) :
    Inv pun once (as ++ [.go e]) { s with loc := .out } :=
  ⟨h.good, fun k => List.mem_append_left _ (h.stopped k), .inr (.inr ⟨e, by simp, .inl ha⟩)⟩

theorem good_did {s : State} {a : Ans} (h : Good s.log) (ht : Time (due s.log) s.clock) : Good (did s a none).log := good_run h ht
theorem good_didD {s : State} {t : Int} {a : Ans} (h : Good s.log) (ht : Time (due s.log) s.clock) : Good (didD s t a none).log := good_run h ht
theorem good_lag {s : State} {a : Ans} {n : Int} (h : Good s.log) (ht : due s.log = some (s.clock - n)) (hn : 0 < n) : Good (did s a (some n)).log := good_report h ht hn
theorem good_lagD {s : State} {t : Int} {a : Ans} {n : Int} (h : Good s.log) (ht : due s.log = some (s.clock - n)) (hn : 0 < n) : Good (didD s t a (some n)).log :=
  good_report h ht hn

theorem inv_go {pun once : Bool} {as : List Act} {s s' : State} {e : Env} (h : Inv pun once as s) (ok : Ok pun once s (.go e)) (hs : go s e = some s') :
    Inv pun once (as ++ [.go e]) s' := by
  have hat := h.at_
  unfold go at hs
  by_cases ha : e.alive = false
  · -- dead
    have ha' : (!e.alive) = true := by simp [ha]
    cases hl : s.loc with
    | got t => simp only [hl, if_pos ha'] at hs; cases hs; exact inv_out h ha
    | again t => simp only [hl, if_pos ha'] at hs; cases hs; exact inv_out h ha
    | timer d t => simp only [hl] at hs; cases hs
    | woken t => simp only [hl, if_pos ha'] at hs; cases hs; exact inv_out h ha
    | redo t =>
      simp only [hl, if_pos ha'] at hs
      split at hs <;> (cases hs; exact inv_out h ha)
    | out => simp only [hl] at hs; cases hs
  have ha' : ¬ (!e.alive) = true := by simpa using ha
  cases hl : s.loc with
  | got t =>
    rw [hl] at hat
    obtain ⟨hd, hp⟩ := hat
    simp only [hl, if_neg ha'] at hs
    by_cases h0 : t = 0
    · rw [if_pos h0] at hs; cases hs
      exact inv_did h.stopped (good_did h.good ⟨t, hd, .inl h0⟩) hp ok
    rw [if_neg h0] at hs
    by_cases h1 : t - s.clock = 0
    · rw [if_pos h1] at hs; cases hs
      exact inv_did h.stopped (good_did h.good ⟨t, hd, .inr (by omega)⟩) hp ok
    rw [if_neg h1] at hs
    by_cases h2 : t - s.clock > 0
    · rw [if_pos h2] at hs; cases hs
      exact ⟨h.good, fun k => List.mem_append_left _ (h.stopped k), hd, .inl rfl⟩
    · rw [if_neg h2] at hs; cases hs
      exact inv_did h.stopped (good_lag h.good (by rw [hd]; congr 1; omega) (by omega)) hp ok
  | again t =>
    rw [hl] at hat
    obtain ⟨h0, hd, hp⟩ := hat
    simp only [hl, if_neg ha'] at hs
    by_cases h1 : t - s.clock = 0
    · rw [if_pos h1] at hs; cases hs
      exact inv_did h.stopped (good_did h.good ⟨t, hd, .inr (by omega)⟩) (.inl hp) ok
    rw [if_neg h1] at hs
    by_cases h2 : t - s.clock > 0
    · rw [if_pos h2] at hs; cases hs
      exact ⟨h.good, fun k => List.mem_append_left _ (h.stopped k), hd, .inr ⟨rfl, hp⟩⟩
    · rw [if_neg h2] at hs; cases hs
      exact inv_did h.stopped (good_lag h.good (by rw [hd]; congr 1; omega) (by omega)) (.inl hp) ok
  | timer d t => simp only [hl] at hs; cases hs
  | woken t =>
    rw [hl] at hat
    obtain ⟨d, hd, hk⟩ := hat
    simp only [hl, if_neg ha'] at hs
    by_cases hr : s.running = true
    · rw [if_pos hr] at hs
      by_cases hc : s.clock < t
      · rw [if_pos hc] at hs; cases hs
      · rw [if_neg hc] at hs; cases hs
        refine inv_didD h.stopped (good_didD h.good ⟨d, hd, .inr ?_⟩) (.inl rfl) ok
        rcases hk with hk | ⟨_, _, hk⟩ <;> omega
    · rw [if_neg hr] at hs; cases hs
      have hr' : s.running = false := by simpa using hr
      refine ⟨h.good, fun k => List.mem_append_left _ (h.stopped k), ?_⟩
      by_cases h0 : t = 0
      · exact .inr ⟨h0, .inr (.inl (List.mem_append_left _ (h.stopped hr')))⟩
      · refine .inl ⟨h0, ?_, fun _ => hr'⟩
        rcases hk with hk | ⟨hk, _⟩
        · rw [hk]; exact hd
        · exact absurd hk h0
  | redo t =>
    rw [hl] at hat
    simp only [hl, if_neg ha'] at hs
    by_cases h0 : t = 0
    · rw [if_pos h0] at hs; cases hs
      rcases hat with ⟨hn, _⟩ | ⟨_, hk⟩
      · exact absurd h0 hn
      · refine ⟨h.good, fun k => List.mem_append_left _ (h.stopped k), ?_⟩
        rcases hk with hk | hk
        · exact .inl hk
        · exact .inr (hk.more _)
    rw [if_neg h0] at hs
    have hd : due s.log = some t ∧ (once = true → s.running = false) := by
      rcases hat with ⟨_, hk⟩ | ⟨hk, _⟩
      · exact hk
      · exact absurd hk h0
    by_cases hr : s.running = true
    · rw [if_neg (by simp [hr])] at hs
      have ho : once = false := by
        cases once with
        | false => rfl
        | true => have := hd.2 rfl; rw [hr] at this; cases this
      by_cases h1 : t - s.clock = 0
      · rw [if_pos h1] at hs; cases hs
        exact inv_didD h.stopped (good_didD h.good ⟨t, hd.1, .inr (by omega)⟩) (.inr ho) ok
      rw [if_neg h1] at hs
      by_cases h2 : t - s.clock < 0
      · rw [if_pos h2] at hs; cases hs
        exact inv_didD h.stopped (good_lagD h.good (by rw [hd.1]; congr 1; omega) (by omega)) (.inr ho) ok
      · rw [if_neg h2] at hs; cases hs
        exact ⟨h.good, fun k => List.mem_append_left _ (h.stopped k), hd.1, .inl rfl⟩
    · rw [if_pos (by simpa using hr)] at hs; cases hs
      exact ⟨h.good, fun k => List.mem_append_left _ (h.stopped k), .inr (.inl (List.mem_append_left _ (h.stopped (by simpa using hr))))⟩
  | out => simp only [hl] at hs; cases hs

theorem inv_step {pun once : Bool} {as : List Act} {s s' : State} {a : Act} (h : Inv pun once as s) (ok : Ok pun once s a) (hs : step s a = some s') :
    Inv pun once (as ++ [a]) s' := by
  have hat := h.at_
  cases a with
  | go e => exact inv_go h ok hs
  | tick d =>
    cases hs
    refine ⟨h.good, fun k => List.mem_append_left _ (h.stopped k), ?_⟩
    show At _ _ _ _ s.loc
    cases hl : s.loc with
    | woken t =>
      rw [hl] at hat
      obtain ⟨x, hd, hk⟩ := hat
      refine ⟨x, hd, hk.imp id fun hk => ⟨hk.1, hk.2.1, ?_⟩⟩
      have := hk.2.2
      show x ≤ s.clock + d; omega
    | got t => rw [hl] at hat; exact hat
    | again t => rw [hl] at hat; exact hat
    | timer x t => rw [hl] at hat; exact hat
    | redo t => rw [hl] at hat; exact hat.imp id fun k => ⟨k.1, k.2.imp id (Excused.more · _)⟩
    | out => rw [hl] at hat; exact hat.imp id (Excused.more · _)
  | stop =>
    cases hs
    refine ⟨h.good, fun _ => by simp, ?_⟩
    show At _ _ _ _ s.loc
    cases hl : s.loc with
    | woken t => rw [hl] at hat; exact hat
    | got t => rw [hl] at hat; exact hat
    | again t => rw [hl] at hat; exact hat
    | timer x t => rw [hl] at hat; exact hat
    | redo t => rw [hl] at hat; exact hat.imp (fun k => ⟨k.1, k.2.1, fun _ => rfl⟩) fun k => ⟨k.1, k.2.imp id (Excused.more · _)⟩
    | out => rw [hl] at hat; exact hat.imp id (Excused.more · _)
  | fire =>
    simp only [step] at hs
    cases hl : s.loc with
    | timer d t =>
      rw [hl] at hat hs
      simp only [Option.some.injEq] at hs
      subst hs
      refine ⟨h.good, fun k => List.mem_append_left _ (h.stopped k), d, hat.1, hat.2.imp id fun k => ⟨k.1, k.2, ?_⟩⟩
      have := ok k.2
      rw [hl] at this; exact this
    | got t => rw [hl] at hs; cases hs
    | again t => rw [hl] at hs; cases hs
    | woken t => rw [hl] at hs; cases hs
    | redo t => rw [hl] at hs; cases hs
    | out => rw [hl] at hs; cases hs

/-- The timers do not fire early. -/
def Punctual : State → List Act → Prop
  | _, [] => True
  | s, a :: as => (a = .fire → match s.loc with | .timer d _ => d ≤ s.clock | _ => True) ∧ match step s a with
    | none => True
    | some t => Punctual t as

/-- The job gives a time, or that it is done, each time (as `PerfSamplingJob` and the monitors do). -/
def Gives (as : List Act) : Prop := ∀ e, Act.go e ∈ as → e.ans.next ≠ none
/-- The job never gives a time (as all other jobs). -/
def Single (as : List Act) : Prop := ∀ e, Act.go e ∈ as → e.ans.next = none

theorem inv_run {pun once : Bool} : ∀ (as : List Act) {bs : List Act} {s s' : State}, Inv pun once bs s → (pun = true → Punctual s as) →
    (once = true → Single as) → (once = false → Gives as) → run s as = some s' → Inv pun once (bs ++ as) s'
  | [], bs, s, s', h, _, _, _, e => by cases e; rw [List.append_nil]; exact h
  | a :: as, bs, s, s', h, hp, h1, h2, e => by
    simp only [run] at e
    cases hs : step s a with
    | none => rw [hs] at e; cases e
    | some t =>
      rw [hs] at e
      have ok : Ok pun once s a := by
        cases a with
        | go x => exact ⟨fun k => h1 k x (by simp), fun k => h2 k x (by simp)⟩
        | fire => exact fun k => (hp k).1 rfl
        | tick d => trivial
        | stop => trivial
      have := inv_run as (inv_step h ok hs) (fun k => by have := (hp k).2; rw [hs] at this; exact this)
        (fun k x hx => h1 k x (List.mem_cons_of_mem _ hx)) (fun k x hx => h2 k x (List.mem_cons_of_mem _ hx)) e
      rw [List.append_assoc] at this; exact this

theorem Inv.c159 {pun once : Bool} {as : List Act} {s : State} (h : Inv pun once as s) : C159At as s :=
  ⟨h.good.timely, h.good.asks, h.good.lags, fun k => by have := h.at_; rw [k] at this; exact this⟩

theorem inv_init {pun once : Bool} (now target : Int) (hp : pun = true ∨ once = true) : Inv pun once [] (init now target) :=
  ⟨good_init _, (fun k => by cases k), rfl, hp⟩

/-- C159, of what the job gives: the time it gives is the one it is asked for next. -/
theorem C159_next_partial {s s' : State} {e : Env} (h : step s (.go e) = some s') : Adds s.log s.clock e.ans s'.log := by
  have e1 : ∀ lag, Adds s.log s.clock e.ans (did s e.ans lag).log := fun lag => .inr ⟨match lag with | none => [] | some l => [.report l],
    by cases lag <;> simp, by
      have : asked (e.ans.next.getD 0) = if e.ans.next = some 0 then none else e.ans.next := by
        cases hn : e.ans.next with
        | none => rfl
        | some n => simp [asked]
      cases lag <;> simp only [did, this]⟩
  have e2 : ∀ t lag, Adds s.log s.clock e.ans (didD s t e.ans lag).log := fun t lag => .inr ⟨match lag with | none => [] | some l => [.report l],
    by cases lag <;> simp, by
      have : e.ans.next.bind asked = if e.ans.next = some 0 then none else e.ans.next := by
        cases hn : e.ans.next with
        | none => rfl
        | some n => simp [asked]
      cases lag <;> simp only [didD, this]⟩
  simp only [step, go] at h
  repeat' split at h
  all_goals first | (cases h; done) | (cases h; first | exact e1 _ | exact e2 _ _ | exact .inl rfl)

/-- C159 with timers that are not early, for a job that gives a time each time. -/
theorem C159_punctual_partial {now target : Int} {as : List Act} {s : State} (h : run (init now target) as = some s) (hp : Punctual (init now target) as)
    (hg : Gives as) : C159At as s :=
  (inv_run (pun := true) (once := false) as (inv_init now target (.inl rfl)) (fun _ => hp) (fun k => by cases k) (fun _ => hg) h).c159

/-- C159 with any timers, for a job that never gives a time. -/
theorem C159_single_partial {now target : Int} {as : List Act} {s : State} (h : run (init now target) as = some s) (hg : Single as) : C159At as s :=
  (inv_run (pun := false) (once := true) as (inv_init now target (.inr rfl)) (fun k => by cases k) (fun _ => hg) (fun k => by cases k) h).c159

/-- C159 with any timers, for a job that gives a time each time and was popped before its time. -/
theorem C159_early_partial {now target : Int} {as : List Act} {s : State} (he : now < target) (h0 : target ≠ 0) {e : Env} (ha : e.alive = true)
    (h : run (init now target) (.go e :: as) = some s) (hg : Gives as) : C159At (.go e :: as) s := by
  have hs : step (init now target) (.go e) = some { init now target with loc := .timer target target } := by
    have h1 : ¬ target - now = 0 := by omega
    simp [step, go, init, ha, h0, h1]
    omega
  simp only [run, hs] at h
  have i : Inv false false [.go e] { init now target with loc := .timer target target } := ⟨good_init _, (fun k => by cases k), rfl, .inl rfl⟩
  exact (inv_run as i (fun k => by cases k) (fun k => by cases k) (fun _ => hg) h).c159

/-! ## Cases -/

/-- A job, late, gives a time; the delegate's timer fires early. -/
def hasty : List Act := [.go { ans := { next := some 100 } }, .go { ans := { next := some 0 } }, .fire, .go { ans := { next := some 0 } }]
/-- A job gives a time once, then does not touch the reference any more. -/
def endless : List Act := [.go {}, .fire, .tick 10, .go { ans := { next := some 20 } }, .tick 20, .go {}, .go {}, .go {}]

/-- Where the full property fails: a job put off in the loop of a time core is done as soon as the timer fires, be it early; in a
delegate a job that gave a time once is done over and over unless it says it is done. -/
theorem C159_jobs_violated : ¬ C159_full ∧
    (∃ s, run (init 10 5) hasty = some s ∧ Gives hasty ∧ s.log.head? = some (.ask none) ∧ s.log.tail.head? = some (.run 10) ∧ due (s.log.drop 2) = some 100) ∧
    ∃ s, run (init 0 10) endless = some s ∧ s.log.count (.run 30) = 3 ∧ s.loc = .redo 20 := by
  refine ⟨fun h => ?_, ⟨(run (init 10 5) hasty).get (by decide), by simp, ?_, by decide, by decide, by decide⟩,
    ⟨(run (init 0 10) endless).get (by decide), by simp, by decide, by decide⟩⟩
  · have := (h 10 5 hasty ((run (init 10 5) hasty).get (by decide)) (by simp)).1.timely [.ask none] [.report 5, .ask (some 100), .run 10, .ask (some 5)] 10 (by decide)
    obtain ⟨x, hx, hk⟩ := this
    cases hx
    rcases hk with hk | hk <;> omega
  · intro e he
    simp [hasty] at he
    rcases he with he | he <;> (rw [he]; simp)

/-- A job popped late, done, put off, done in time by its delegate, and done again; and one that is done once. -/
def steady : List Act := [.go { ans := { next := some 100 } }, .go { ans := { next := some 0 } }, .tick 90, .fire, .go { ans := { next := some 95 } }, .go { ans := { next := some 0 } },
  .go { ans := { next := some 0 } }]

theorem C159_nonvacuous :
    (∃ s, run (init 10 5) steady = some s ∧ Punctual (init 10 5) steady ∧ Gives steady ∧ s.loc = .out ∧ C159At steady s ∧
      s.log = [.report 5, .ask none, .run 100, .ask (some 95), .run 100, .report 5, .ask (some 100), .run 10, .ask (some 5)]) ∧
    ∃ s, run (init 0 5) [.go {}, .fire, .tick 7, .go {}, .go {}] = some s ∧ s.loc = .out ∧ s.log = [.ask none, .run 7, .ask (some 5)] ∧
      C159At [.go {}, .fire, .tick 7, .go {}, .go {}] s := by
  have hp : Punctual (init 10 5) steady := by
    refine ⟨(fun k => by cases k), (fun k => by cases k), (fun k => by cases k), ?_, ?_⟩
    · intro _; decide
    · exact ⟨(fun k => by cases k), (fun k => by cases k), (fun k => by cases k), trivial⟩
  have hg : Gives steady := by
    intro e he
    simp [steady] at he
    rcases he with he | he | he | he <;> (rw [he]; simp)
  refine ⟨⟨(run (init 10 5) steady).get (by decide), by simp, hp, hg, by decide, C159_punctual_partial (by simp) hp hg, by decide⟩,
    ⟨(run (init 0 5) [.go {}, .fire, .tick 7, .go {}, .go {}]).get (by decide), by simp, by decide, by decide, C159_single_partial (now := 0) (target := 5) (by simp) ?_⟩⟩
  intro e he
  simp at he
  rw [he]

end Verif.Timed
