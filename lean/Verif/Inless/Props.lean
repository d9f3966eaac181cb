import Verif.Inless.Spec
/-!
# C172
-/
namespace Verif.Inless

/-- What holds in calm runs. -/
structure Inv (p : Pgm) (s : State) : Prop where
  act : s.activated = (s.view && s.group)
  one : s.jobs.length + s.inside ≤ 1
  due : s.alive = true → s.jobs.length + s.inside = 1
  inn : s.inside > 0 → s.alive = true
  soon : ∀ t ∈ s.jobs, t ≤ s.now + p.tsc
  late : ∀ t ∈ s.jobs, ∀ x ∈ runs s.log, x + p.tsc ≤ t
  past : s.inside > 0 → ∀ x ∈ runs s.log, x + p.tsc ≤ s.now
  bef : ∀ x ∈ runs s.log, x ≤ s.now
  apart : (runs s.log).Pairwise fun new old => old + p.tsc ≤ new
  once : p.once = true → (runs s.log).length ≤ 1 ∧ (runs s.log ≠ [] → s.invalidated = true)
  active : ∀ t b, Ev.run t b ∈ s.log → b = true

theorem Inv.at {p s} (h : Inv p s) : C172At p s where
  apart := h.apart
  once := fun ho => (h.once ho).1
  active := h.active
  goes := by
    intro ⟨h1, h2, h3⟩
    have ha : s.alive = true := by simp [State.alive, h1, h.act, h2, h3]
    have := h.due ha
    by_cases hi : s.inside > 0
    · exact Or.inl hi
    · right
      cases hj : s.jobs with
      | nil => simp [hj] at this; omega
      | cons t ts => exact ⟨t, List.mem_cons_self, h.soon t (by simp [hj])⟩

theorem inv_begin {p : Pgm} {s : State} (h : Inv p { s with activated := false, view := false, group := false }) (hj : s.jobs = []) (hi : s.inside = 0)
    (hv : s.view = true) (hg : s.group = true) : Inv p (s.begin p) := by
  have hb := h.bef
  have hp := h.apart
  have ho := h.once
  have hac := h.active
  simp only at hb hp ho hac
  refine ⟨by simp [State.begin, hv, hg], by simp [State.begin, hj, hi], fun _ => by simp [State.begin, hj, hi], fun hc => ?_, ?_, ?_, ?_, hb, hp, ho, ?_⟩
  · simp [State.begin, hi] at hc
  · intro t ht; simp [State.begin, hj] at ht; subst ht; exact Nat.le_refl _
  · intro t ht x hx
    simp [State.begin, hj] at ht; subst ht
    have := hb x hx
    omega
  · intro hc; simp [State.begin, hi] at hc
  · intro t b hm
    simp only [State.begin, List.mem_cons, reduceCtorEq, false_or] at hm
    exact hac t b hm

theorem inv_off {p : Pgm} {s : State} (h : Inv p s) (hi : s.inside = 0) (v g : Bool) (hvg : (v && g) = false) :
    Inv p { s with activated := false, view := v, group := g } :=
  ⟨by simp [hvg], by simpa [hi] using h.one, by simp [State.alive], fun hc => by simp [hi] at hc, h.soon, h.late, fun hc => by simp [hi] at hc,
    h.bef, h.apart, h.once, h.active⟩

theorem inv_update {p : Pgm} {s : State} (h : Inv p s) (hi : s.inside = 0) (v g : Bool)
    (hc : (v && g) = true → (s.view && s.group) = false → s.jobs = []) : Inv p (update p s v g) := by
  have ha := h.act
  have hgain : (v && g) = true → (s.view && s.group) = false → Inv p (State.begin p { s with view := v, group := g }) := by
    intro h1 h2
    simp only [Bool.and_eq_true] at h1
    exact inv_begin (by simpa using inv_off h hi false false rfl) (hc (by simp [h1]) h2) hi h1.1 h1.2
  have hsame : (v && g) = (s.view && s.group) → Inv p { s with view := v, group := g } := by
    intro e
    exact ⟨by simp [ha, e], h.one, h.due, h.inn, h.soon, h.late, h.past, h.bef, h.apart, h.once, h.active⟩
  obtain ⟨now, act, inv, vw, gr, jobs, ins, log⟩ := s
  simp only at ha hgain hsame hi
  unfold update
  cases gr <;> cases vw <;> cases v <;> cases g <;> simp only [Bool.not_true, Bool.not_false, if_true, Bool.false_eq_true, if_false, reduceIte] <;>
    first
      | exact hgain rfl rfl
      | exact hsame rfl
      | exact inv_off h hi _ _ rfl

theorem inv_take {p : Pgm} {s s' : State} (h : Inv p s) (hi : s.inside = 0) {k} (e : take s k = some s') : Inv p s' := by
  unfold take at e
  cases hk : s.jobs[k]? with
  | none => rw [hk] at e; cases e
  | some t =>
    rw [hk, Option.bind_some] at e
    have hlen := h.one
    have hks : k < s.jobs.length := by
      have := List.getElem?_eq_some_iff.1 hk
      exact this.1
    have hj : s.jobs = [t] := by
      match hs : s.jobs, hks, hlen, hk with
      | [a], h1, _, h2 =>
        simp [hs] at h1
        subst h1
        simp [hs] at h2
        rw [h2]
      | a :: b :: l, _, h2, _ => simp [hs] at h2; omega
    have hk0 : k = 0 := by simp [hj] at hks; exact hks
    subst hk0
    by_cases hd : s.alive = true
    · rw [if_neg (by simp [hd])] at e
      split at e
      · rename_i ht
        cases e
        refine ⟨h.act, by simp [hj, hi], fun _ => by simp [hj, hi], fun _ => hd, by simp [hj], by simp [hj], fun _ x hx => ?_, h.bef, h.apart, h.once, h.active⟩
        have := h.late t (by simp [hj]) x hx
        simp only
        omega
      · cases e
    · rw [if_pos (by simp [hd])] at e
      cases e
      exact ⟨h.act, by simp [hj, hi], fun hc => absurd hc hd, fun hc => by simp [hi] at hc, by simp [hj], by simp [hj], fun hc => by simp [hi] at hc,
        h.bef, h.apart, h.once, h.active⟩

theorem inv_signal {p : Pgm} {s : State} (h : Inv p s) (hi : s.inside ≠ 0) : Inv p (signal p s) := by
  have hal := h.inn (by omega)
  have hone := h.one
  have hj : s.jobs = [] := by cases hs : s.jobs with
    | nil => rfl
    | cons a l => simp [hs] at hone; omega
  have hi1 : s.inside = 1 := by simp [hj] at hone; omega
  have hinv : s.invalidated = false := by simp [State.alive] at hal; exact hal.1
  have hact : s.activated = true := by simp [State.alive] at hal; exact hal.2
  have hg : s.group = true := by have := h.act; rw [hact] at this; simp_all
  have hpast := h.past (by omega)
  refine ⟨h.act, ?_, ?_, fun hc => by simp [signal, hi1] at hc, ?_, ?_, fun hc => by simp [signal, hi1] at hc, ?_, ?_, ?_, ?_⟩
  · simp only [signal, hj, hi1, hal, hg]
    split <;> simp
  · intro ha
    have ho : p.once = false := by simp [signal, State.alive, hinv] at ha; exact ha.1
    simp [signal, hj, hi1, hal, hg, ho]
  · intro t ht
    simp only [signal, hj] at ht
    split at ht
    · simp at ht; subst ht; exact Nat.le_refl _
    · cases ht
  · intro t ht x hx
    simp only [signal, hj] at ht
    split at ht
    · simp only [List.nil_append, List.mem_singleton] at ht
      subst ht
      simp only [signal, runs, List.mem_cons] at hx
      rcases hx with rfl | hx
      · exact Nat.le_refl _
      · have := h.bef x hx; omega
    · cases ht
  · intro x hx
    simp only [signal, runs, List.mem_cons] at hx
    rcases hx with rfl | hx
    · exact Nat.le_refl _
    · exact h.bef x hx
  · simp only [signal, runs]
    exact List.Pairwise.cons hpast h.apart
  · intro ho
    have hn : runs s.log = [] := by
      apply Classical.byContradiction
      intro hne
      have := (h.once ho).2 hne
      simp [hinv] at this
    simp [signal, runs, hn, ho]
  · intro t b hm
    simp only [signal, List.mem_cons, Ev.run.injEq] at hm
    rcases hm with ⟨_, rfl⟩ | hm
    · exact hal
    · exact h.active t b hm

theorem inv_step {p : Pgm} {s s' : State} {a : Act} (h : Inv p s) (hc : Calm s a) (e : step p s a = some s') : Inv p s' := by
  obtain ⟨c1, c2, c3⟩ := hc
  cases a with
  | tick d =>
    cases e
    refine ⟨h.act, h.one, h.due, h.inn, fun t ht => ?_, h.late, fun hc x hx => ?_, fun x hx => ?_, h.apart, h.once, h.active⟩
    · have := h.soon t ht; simp only; omega
    · have := h.past hc x hx; simp only; omega
    · have := h.bef x hx; simp only; omega
  | update v g =>
    cases e
    have hi : s.inside = 0 := Nat.eq_zero_of_not_pos fun hp => by rcases c1 hp with h | ⟨_, h⟩ <;> cases h
    exact inv_update h hi v g (c2 v g rfl)
  | early g =>
    cases e
    cases c3 g rfl
    exact h
  | take k =>
    have hi : s.inside = 0 := Nat.eq_zero_of_not_pos fun hp => by rcases c1 hp with h | ⟨_, h⟩ <;> cases h
    exact inv_take h hi e
  | signal =>
    simp only [step] at e
    split at e
    · cases e
    · rename_i hi
      cases e
      exact inv_signal h hi
  | kill =>
    cases e
    have hi : s.inside = 0 := Nat.eq_zero_of_not_pos fun hp => by rcases c1 hp with h | ⟨_, h⟩ <;> cases h
    exact ⟨h.act, h.one, by simp [State.alive], fun hc => by simp [hi] at hc, h.soon, h.late, h.past, h.bef, h.apart, fun ho => ⟨(h.once ho).1, fun _ => rfl⟩,
      h.active⟩

theorem inv_run {p : Pgm} : ∀ {as : List Act} {s s' : State}, Inv p s → AllCalm p s as → run p s as = some s' → Inv p s'
  | [], _, _, h, _, e => by cases e; exact h
  | a :: as, s, s', h, hc, e => by
    simp only [run, Option.bind_eq_some_iff] at e
    obtain ⟨s1, e1, e2⟩ := e
    exact inv_run (inv_step h hc.1 e1) (hc.2 s1 e1) e2

theorem inv_inject (p : Pgm) (now : Nat) (v g : Bool) : Inv p (inject p now v g) := by
  have h0 : Inv p { now := now, activated := false, view := false, group := false, jobs := [], log := [] } :=
    ⟨rfl, by simp, by simp [State.alive], by simp, by simp, by simp, by simp, by simp [runs], by simp [runs], by simp [runs], by simp⟩
  have : inject p now v g = update p { now := now, activated := false, view := false, group := false, jobs := [], log := [] } v g := by
    cases v <;> cases g <;> rfl
  rw [this]
  exact inv_update h0 rfl v g fun _ _ => rfl

/-! Without conditions: the runs in a time scope -/

/-- Jobs that are due in the time scope that begins at `a`. -/
def dueIn (p : Pgm) (a : Nat) (s : State) : Nat := (s.jobs.filter fun t => t < a + p.tsc).length

structure Cnt (p : Pgm) (a : Nat) (s : State) : Prop where
  all : s.jobs.length + s.inside ≤ starts s.log
  win : runsIn p a s.log ≤ starts s.log
  pot : s.now < a + p.tsc → runsIn p a s.log + dueIn p a s + s.inside ≤ starts s.log
  bef : ∀ x ∈ runs s.log, x ≤ s.now

theorem runsIn_zero {p a l n} (hb : ∀ x ∈ runs l, x ≤ n) (h : n < a) : runsIn p a l = 0 := by
  unfold runsIn
  rw [List.length_eq_zero_iff, List.filter_eq_nil_iff]
  intro x hx
  have := hb x hx
  simp
  omega

theorem dueIn_le (p a s) : dueIn p a s ≤ s.jobs.length := List.length_filter_le _ _

theorem cnt_begin {p a s} (h : Cnt p a s) : Cnt p a (s.begin p) := by
  obtain ⟨h1, h2, h3, h4⟩ := h
  have e : runsIn p a (s.begin p).log = runsIn p a s.log := rfl
  have e2 : starts (s.begin p).log = starts s.log + 1 := rfl
  have e3 : (s.begin p).inside = s.inside := rfl
  have e4 : (s.begin p).now = s.now := rfl
  refine ⟨by simp [State.begin, starts]; omega, by omega, fun hn => ?_, h4⟩
  have := h3 hn
  have : dueIn p a (s.begin p) ≤ dueIn p a s + 1 := by
    simp only [dueIn, State.begin, List.filter_append, List.length_append]
    have := List.length_filter_le (fun t => decide (t < a + p.tsc)) [s.now + p.tsc]
    simp at this
    omega
  omega

theorem filter_erase {α : Type} (f : α → Bool) {l : List α} {k : Nat} (h : k < l.length) (hf : f l[k] = true) :
    (l.filter f).length = ((l.eraseIdx k).filter f).length + 1 := by
  have e : l = l.take k ++ l[k] :: l.drop (k + 1) := by
    rw [← List.drop_eq_getElem_cons h, List.take_append_drop]
  rw [List.eraseIdx_eq_take_drop_succ]
  have e' : (l.filter f).length = ((l.take k ++ l[k] :: l.drop (k + 1)).filter f).length := by rw [← e]
  rw [e', List.filter_append, List.filter_cons_of_pos hf, List.filter_append]
  simp only [List.length_append, List.length_cons]
  omega

theorem cnt_signal {p a s} (h : Cnt p a s) (hi : s.inside ≠ 0) : Cnt p a (signal p s) := by
  obtain ⟨h1, h2, h3, h4⟩ := h
  have e2 : starts (signal p s).log = starts s.log := rfl
  have e3 : (signal p s).inside = s.inside - 1 := rfl
  have e4 : (signal p s).now = s.now := rfl
  have er : runsIn p a (signal p s).log = (if a ≤ s.now ∧ s.now < a + p.tsc then 1 else 0) + runsIn p a s.log := by
    simp only [runsIn, signal, runs, List.filter_cons]
    by_cases hc : a ≤ s.now ∧ s.now < a + p.tsc
    · simp [hc]; omega
    · rw [if_neg (by simpa using hc), if_neg hc]; omega
  have ej : (signal p s).jobs.length ≤ s.jobs.length + 1 := by
    simp only [signal]; split <;> simp
  have ed : dueIn p a (signal p s) ≤ dueIn p a s + if s.now < a then 1 else 0 := by
    simp only [dueIn, signal]
    split
    · simp only [List.filter_append, List.length_append, List.filter_cons, List.filter_nil]
      by_cases hc : s.now < a
      · rw [if_pos (by simpa using hc), if_pos hc]; simp
      · rw [if_neg (by simpa using hc), if_neg hc]; simp
    · omega
  refine ⟨by omega, ?_, fun hn => ?_, fun x hx => ?_⟩
  · by_cases hc : a ≤ s.now ∧ s.now < a + p.tsc
    · rw [if_pos hc] at er
      have := h3 hc.2
      omega
    · rw [if_neg hc] at er
      omega
  · have := h3 hn
    by_cases hc : s.now < a
    · rw [if_pos hc] at ed
      rw [if_neg (by omega)] at er
      omega
    · rw [if_neg hc] at ed
      rw [if_pos (by omega)] at er
      omega
  · simp only [signal, runs, List.mem_cons] at hx
    rcases hx with rfl | hx
    · exact Nat.le_refl _
    · exact h4 x hx

theorem cnt_step {p a s s'} {x : Act} (h : Cnt p a s) (e : step p s x = some s') : Cnt p a s' := by
  have hkeep : ∀ v g ac, Cnt p a { s with activated := ac, view := v, group := g } := fun _ _ _ => ⟨h.all, h.win, h.pot, h.bef⟩
  cases x with
  | tick d =>
    cases e
    exact ⟨h.all, h.win, fun hn => h.pot (by simp only at hn; omega), fun x hx => Nat.le_trans (h.bef x hx) (Nat.le_add_right _ _)⟩
  | update v g =>
    cases e
    unfold update
    simp only
    repeat' split
    all_goals first | exact hkeep _ _ _ | exact cnt_begin (hkeep _ _ s.activated)
  | early g => cases e; exact ⟨h.all, h.win, h.pot, h.bef⟩
  | kill => cases e; exact ⟨h.all, h.win, h.pot, h.bef⟩
  | signal =>
    simp only [step] at e
    split at e
    · cases e
    · rename_i hi
      cases e
      exact cnt_signal h hi
  | take k =>
    simp only [step, take] at e
    cases hk : s.jobs[k]? with
    | none => rw [hk] at e; cases e
    | some t =>
      rw [hk, Option.bind_some] at e
      obtain ⟨hlt, hget⟩ := List.getElem?_eq_some_iff.1 hk
      have hl : (s.jobs.eraseIdx k).length + 1 = s.jobs.length := by
        rw [List.length_eraseIdx_of_lt hlt]; omega
      have hsub : ((s.jobs.eraseIdx k).filter fun t => decide (t < a + p.tsc)).length ≤ dueIn p a s :=
        ((List.eraseIdx_sublist s.jobs k).filter _).length_le
      have h1 := h.all
      have h2 := h.pot
      split at e
      · cases e
        exact ⟨by simp only; omega, h.win, fun hn => by have := h2 hn; simp only [dueIn]; omega, h.bef⟩
      · split at e
        · rename_i ht
          cases e
          refine ⟨by simp only; omega, h.win, fun hn => ?_, h.bef⟩
          have := h2 hn
          simp only at hn
          have := filter_erase (fun t => decide (t < a + p.tsc)) hlt (by rw [hget]; simp; omega)
          have e0 : dueIn p a s = (s.jobs.filter fun t => decide (t < a + p.tsc)).length := rfl
          simp only [dueIn]
          omega
        · cases e

theorem cnt_run {p : Pgm} {a : Nat} : ∀ {as : List Act} {s s' : State}, Cnt p a s → run p s as = some s' → Cnt p a s'
  | [], _, _, h, e => by cases e; exact h
  | _ :: as, s, s', h, e => by
    simp only [run, Option.bind_eq_some_iff] at e
    obtain ⟨s1, e1, e2⟩ := e
    exact cnt_run (cnt_step h e1) e2

theorem cnt_inject (p : Pgm) (a now : Nat) (v g : Bool) : Cnt p a (inject p now v g) := by
  have h0 : Cnt p a { now := now, activated := false, view := v, group := g, jobs := [], log := [] } :=
    ⟨by simp [starts], by simp [runsIn, runs, starts], by simp [runsIn, runs, dueIn, starts], by simp [runs]⟩
  unfold inject
  simp only
  split
  · exact cnt_begin h0
  · exact h0

theorem run_append {p : Pgm} {bs : List Act} : ∀ {as : List Act} {s : State}, run p s (as ++ bs) = (run p s as).bind fun s => run p s bs
  | [], _ => rfl
  | a :: as, s => by
    simp only [List.cons_append, run]
    cases step p s a with
    | none => rfl
    | some s1 => exact run_append

/-- What an invalidated controller has done it has done: it is not started again. -/
theorem dead_step {p s s'} {x : Act} (hi : s.inside = 0) (hd : s.invalidated = true) (e : step p s x = some s') :
    s'.inside = 0 ∧ s'.invalidated = true ∧ runs s'.log = runs s.log := by
  cases x with
  | tick d => cases e; exact ⟨hi, hd, rfl⟩
  | update v g =>
    cases e
    unfold update
    simp only
    repeat' split
    all_goals exact ⟨hi, hd, rfl⟩
  | early g => cases e; exact ⟨hi, hd, rfl⟩
  | kill => cases e; exact ⟨hi, rfl, rfl⟩
  | signal => simp [step, hi] at e
  | take k =>
    simp only [step, take] at e
    cases hk : s.jobs[k]? with
    | none => rw [hk] at e; cases e
    | some t =>
      rw [hk, Option.bind_some, if_pos (by simp [State.alive, hd])] at e
      cases e
      exact ⟨hi, hd, rfl⟩

theorem dead_run {p : Pgm} : ∀ {as : List Act} {s s' : State}, s.inside = 0 → s.invalidated = true → run p s as = some s' → runs s'.log = runs s.log
  | [], _, _, _, _, e => by cases e; rfl
  | _ :: as, s, s', hi, hd, e => by
    simp only [run, Option.bind_eq_some_iff] at e
    obtain ⟨s1, e1, e2⟩ := e
    obtain ⟨h1, h2, h3⟩ := dead_step hi hd e1
    rw [dead_run h1 h2 e2, h3]

theorem starts_step {p : Pgm} {s s' : State} {a : Act} (e : step p s a = some s') : starts s.log ≤ starts s'.log := by
  cases a with
  | tick d => cases e; exact Nat.le_refl _
  | early g => cases e; exact Nat.le_refl _
  | kill => cases e; exact Nat.le_refl _
  | signal =>
    simp only [step] at e
    split at e <;> cases e
    exact Nat.le_refl _
  | take k =>
    simp only [step, take, Option.bind_eq_some_iff] at e
    obtain ⟨t, _, e⟩ := e
    split at e
    · cases e; exact Nat.le_refl _
    · split at e <;> cases e
      exact Nat.le_refl _
  | update v g =>
    cases e
    simp only [update, State.begin]
    repeat' split
    all_goals simp [starts]

theorem starts_run {p : Pgm} : ∀ {as : List Act} {s s' : State}, run p s as = some s' → starts s.log ≤ starts s'.log
  | [], _, _, e => by cases e; exact Nat.le_refl _
  | _ :: as, s, s', e => by
    simp only [run, Option.bind_eq_some_iff] at e
    obtain ⟨s1, e1, e2⟩ := e
    exact Nat.le_trans (starts_step e1) (starts_run e2)

/-- A controller that is not alive gets no jobs. -/
theorem idle_step {p : Pgm} {s s' : State} {a : Act} (h : s.alive = false) (hs : starts s'.log = starts s.log) (e : step p s a = some s') :
    s'.alive = false ∧ s'.jobs.Sublist s.jobs := by
  cases a with
  | tick d => cases e; exact ⟨h, List.Sublist.refl _⟩
  | early g => cases e; exact ⟨h, List.Sublist.refl _⟩
  | kill => cases e; exact ⟨by simp [State.alive], List.Sublist.refl _⟩
  | signal =>
    simp only [step] at e
    split at e <;> cases e
    refine ⟨?_, ?_⟩
    · simp only [State.alive, signal, Bool.and_eq_false_iff] at h ⊢
      cases hi : s.invalidated <;> simp_all
    · simp [signal, h]
  | take k =>
    simp only [step, take, Option.bind_eq_some_iff] at e
    obtain ⟨t, _, e⟩ := e
    rw [if_pos (by simp [h])] at e
    cases e
    exact ⟨h, List.eraseIdx_sublist _ _⟩
  | update v g =>
    cases e
    revert hs
    simp only [update, State.begin]
    repeat' split
    all_goals simp_all [starts, State.alive]

theorem idle_run {p : Pgm} : ∀ {as : List Act} {s s' : State}, s.alive = false → starts s'.log = starts s.log → run p s as = some s' →
    s'.jobs.Sublist s.jobs
  | [], _, _, _, _, e => by cases e; exact List.Sublist.refl _
  | _ :: as, s, s', h, hs, e => by
    simp only [run, Option.bind_eq_some_iff] at e
    obtain ⟨s1, e1, e2⟩ := e
    have a1 := starts_step e1
    have a2 := starts_run e2
    obtain ⟨h1, h2⟩ := idle_step h (by omega) e1
    exact (idle_run h1 (by omega) e2).trans h2

/-- C172 in part: it holds when nothing comes between a check and a run, when the program has been inactive for so
long that the jobs of its earlier activity are gone whenever it becomes active again, and when the group changes in updates
of the view only.  Without conditions: in a time scope there are no more runs than times the program became active,
a controller that is invalidated while no thread is about to run it never runs again, and one that is not alive gets no jobs
until it is activated. -/
theorem C172_runs_partial :
    (∀ p now v g as s, AllCalm p (inject p now v g) as → run p (inject p now v g) as = some s → C172At p s) ∧
    (∀ p now v g as s a, run p (inject p now v g) as = some s → runsIn p a s.log ≤ starts s.log) ∧
    (∀ p now v g as s bs s', run p (inject p now v g) as = some s → s.inside = 0 → s.invalidated = true →
      run p (inject p now v g) (as ++ bs) = some s' →
      runs s'.log = runs s.log) ∧
    ∀ p now v g as s bs s', run p (inject p now v g) as = some s → s.alive = false → run p (inject p now v g) (as ++ bs) = some s' →
      starts s'.log = starts s.log → s'.jobs.Sublist s.jobs := by
  refine ⟨fun p now v g as s hc e => (inv_run (inv_inject p now v g) hc e).at, fun p now v g as s a e => (cnt_run (cnt_inject p a now v g) e).win, ?_, ?_⟩
  · intro p now v g as s bs s' e hi hd e'
    rw [run_append, e, Option.bind_some] at e'
    exact dead_run hi hd e'
  · intro p now v g as s bs s' e hd e' hs
    rw [run_append, e, Option.bind_some] at e'
    exact idle_run hd hs e'

/-- A program with a time scope of 100, that runs again and again, or once. -/
def cont : Pgm := ⟨100, false⟩
def once : Pgm := ⟨100, true⟩

/-- The program becomes inactive and active again within a time scope: its old job goes on. -/
def twice : List Act := [.tick 50, .update false true, .update true true, .tick 50, .take 0, .signal, .tick 50, .take 0, .signal]

/-- Two jobs of a program that is to run once are found due at the same time. -/
def race : List Act := [.tick 50, .update false true, .update true true, .tick 100, .take 0, .take 0, .signal, .signal]

/-- The program becomes inactive after the check. -/
def stale : List Act := [.tick 100, .take 0, .update false true, .signal]

/-- The group is found inactive when an object is injected, and active again, with a run in between. -/
def stuck : List Act := [.tick 100, .early false, .take 0, .signal, .early true, .update true true]

/-- C172 does not hold: a program that becomes inactive and active again within its time scope runs twice in each time scope
from then on; a program that is to run once can run twice; a program can run when it is not active any more; and a program can stop
for good though it is active. -/
theorem C172_runs_violated : ¬ C172_full ∧
    (∃ s, run cont (inject cont 0 true true) twice = some s ∧ runs s.log = [150, 100] ∧ s.jobs = [200, 250] ∧ s.on) ∧
    (∃ s, run once (inject once 0 true true) race = some s ∧ runs s.log = [150, 150]) ∧
    (∃ s, run cont (inject cont 0 true true) stale = some s ∧ Ev.run 100 false ∈ s.log) ∧
    ∃ s, run cont (inject cont 0 true true) stuck = some s ∧ s.on ∧ s.activated = true ∧ s.jobs = [] ∧ s.inside = 0 := by
  have h1 : ∃ s, run cont (inject cont 0 true true) twice = some s ∧ runs s.log = [150, 100] ∧ s.jobs = [200, 250] ∧ s.on :=
    ⟨_, rfl, by decide, by decide, by decide, by decide, by decide⟩
  refine ⟨fun h => ?_, h1, ⟨_, rfl, by decide⟩, ⟨_, rfl, by decide⟩, ⟨_, rfl, ⟨by decide, by decide, by decide⟩, by decide, by decide, by decide⟩⟩
  obtain ⟨s, e, er, _⟩ := h1
  have := (h _ _ _ _ _ _ e).apart
  rw [er] at this
  simp [cont] at this

/-- A program that runs three times, is inactive for long enough, and runs again; and one that runs once. -/
def calm : List Act := [.tick 100, .take 0, .signal, .tick 110, .take 0, .signal, .update false true, .tick 200, .take 0, .update true true, .tick 100, .take 0, .tick 5,
  .signal]

theorem calm_all : AllCalm cont (inject cont 0 true true) calm := by
  simp [calm, AllCalm, Calm, step, take, update, signal, inject, State.begin, State.alive, cont]

theorem C172_nonvacuous :
    (∃ s, AllCalm cont (inject cont 0 true true) calm ∧ run cont (inject cont 0 true true) calm = some s ∧ runs s.log = [515, 210, 100] ∧ s.on ∧
      s.jobs = [615]) ∧
    ∃ s, run once (inject once 7 true true) [.tick 100, .take 0, .signal, .update false true, .update true true] = some s ∧ runs s.log = [107] ∧
      s.invalidated = true ∧ s.inside = 0 ∧ s.jobs = [207] :=
  ⟨⟨_, calm_all, rfl, by decide, ⟨by decide, by decide, by decide⟩, by decide⟩, ⟨_, rfl, by decide, by decide, by decide, by decide⟩⟩

end Verif.Inless
