import Verif.Ackg.Spec
/-!
# The outcome of a goal that something is absent: C180
-/
namespace Verif.Ackg

theorem isEvidence_shows (g : Goal) (e : Ev) :
    isEvidence g.anti e = match shows g e with | some true => .pos | some false => .neg | none => .fail := by
  obtain ⟨anti, sim, root⟩ := g
  obtain ⟨id, fact, rel, ov, inc⟩ := e
  cases anti <;> cases fact <;> cases rel <;> cases ov <;> cases inc <;> rfl

theorem run_cons (g : Goal) (s : State) (e : Event) (es : List Event) : run g s (e :: es) = run g (step g s e) es := rfl

theorem run_append (g : Goal) (s : State) (xs ys : List Event) : run g s (xs ++ ys) = run g (run g s xs) ys := by
  simp [run, List.foldl_append]

theorem ack_quiet {g : Goal} {e : Ev} (h : ¬ Excludes g e) (s : State) (r : Option Rdx) : ack g s e r = s := by
  unfold ack
  rw [if_neg]
  intro hc
  simp only [Bool.and_eq_true, beq_iff_eq] at hc
  apply h
  refine ⟨hc.1.1, hc.1.2, ?_⟩
  have h2 := hc.2
  rw [isEvidence_shows] at h2
  cases hs : shows g e with
  | none => rw [hs] at h2; cases h2
  | some b => cases b with
    | true => rfl
    | false => rw [hs] at h2; cases h2

theorem ack_expected {g : Goal} {e : Ev} {r : Option Rdx} (h : Excludes g e) (hr : Expected r) (h1 : g.sim = true) (h2 : g.root = true)
    (s : State) : ack g s e r = register s true (some e.id) := by
  obtain ⟨ha, hf, hs⟩ := h
  obtain ⟨x, rfl, hx, hi, hq⟩ := hr
  have : ¬ x.inputs < 2 := by omega
  have hp : isEvidence g.anti e = .pos := by rw [isEvidence_shows, hs]
  rw [ha] at hp
  simp [ack, ha, hf, hp, hx, hq, h1, h2, this]

/-- Without a monitor nothing is told as long as there is nothing from the extractor. -/
theorem unwatched {g : Goal} : ∀ (es : List Event) (s : State), s.watched = false → (∀ ev ∈ es, Quiet g ev) →
    (run g s es).outs = s.outs ∧ (run g s es).watched = false ∧ (s.outs = [] → (run g s es).tpx = s.tpx)
  | [], s, hw, _ => ⟨rfl, hw, fun _ => rfl⟩
  | ev :: es, s, hw, hq => by
    rw [run_cons]
    have hq' : ∀ ev ∈ es, Quiet g ev := fun x hx => hq x (List.mem_cons_of_mem _ hx)
    have h0 := hq ev (List.mem_cons_self ..)
    cases ev with
    | seen e =>
      have : step g s (.seen e) = s := by simp [step, seen, hw]
      rw [this]; exact unwatched es s hw hq'
    | predicted e r =>
      have : step g s (.predicted e r) = s := by
        show (if s.tpx then ack g s e r else s) = s
        rw [ack_quiet h0]; simp
      rw [this]; exact unwatched es s hw hq'
    | time =>
      have : step g s .time = s := by simp [step, time, hw]
      rw [this]; exact unwatched es s hw hq'
    | heard =>
      by_cases ho : s.outs = []
      · have : step g s .heard = s := by simp [step, ho]
        rw [this]; exact unwatched es s hw hq'
      · have : step g s .heard = { s with tpx := false } := by simp [step, ho]
        rw [this]
        obtain ⟨a, b, _⟩ := unwatched (g := g) es { s with tpx := false } hw hq'
        exact ⟨a, b, fun h => absurd h ho⟩

/-- With neither a monitor nor an extractor nothing is told. -/
theorem over {g : Goal} : ∀ (es : List Event) (s : State), s.watched = false → s.tpx = false → (run g s es).outs = s.outs
  | [], _, _, _ => rfl
  | ev :: es, s, hw, ht => by
    rw [run_cons]
    have : step g s ev = s := by
      cases ev with
      | seen e => simp [step, seen, hw]
      | predicted e r => simp [step, ht]
      | time => simp [step, time, hw]
      | heard =>
        show (if s.outs = [] then s else { s with tpx := false }) = s
        split
        · rfl
        · rw [← ht]
    rw [this]; exact over es s hw ht

/-- What does not decide changes nothing. -/
theorem idle {g : Goal} : ∀ (es : List Event) (s : State), s.inv = false → s.outs = [] → (∀ ev ∈ es, Quiet g ev) →
    (∀ ev ∈ es, outcome g ev = none) → run g s es = s
  | [], _, _, _, _, _ => rfl
  | ev :: es, s, hi, ho, hq, hn => by
    rw [run_cons]
    have h0 := hq ev (List.mem_cons_self ..)
    have h1 := hn ev (List.mem_cons_self ..)
    have : step g s ev = s := by
      cases ev with
      | seen e =>
        have h2 : shows g e = none := by
          cases h : shows g e with
          | none => rfl
          | some b => simp [outcome, h] at h1
        have hf : isEvidence g.anti e = .fail := by rw [isEvidence_shows, h2]
        simp [step, seen, hi, hf]
      | predicted e r =>
        show (if s.tpx then ack g s e r else s) = s
        rw [ack_quiet h0]; simp
      | time => simp [outcome] at h1
      | heard => simp [step, ho]
    rw [this]
    exact idle es s hi ho (fun x hx => hq x (List.mem_cons_of_mem _ hx)) (fun x hx => hn x (List.mem_cons_of_mem _ hx))

/-- What decides and is not left to the extractor is told, and the monitor ends. -/
theorem decides {g : Goal} {s : State} {ev : Event} {o : Bool × Option Nat} (hw : s.watched = true) (hi : s.inv = false) (ho : s.outs = [])
    (hh : ¬ Handed g ev) (hd : outcome g ev = some o) : (step g s ev).outs = [o] ∧ (step g s ev).watched = false := by
  cases ev with
  | seen e =>
    cases hs : shows g e with
    | none => simp [outcome, hs] at hd
    | some b =>
      simp only [outcome, hs, Option.map_some, Option.some.injEq] at hd
      subst hd
      have he := isEvidence_shows g e
      rw [hs] at he
      cases b with
      | true =>
        have : ¬ (e.fact = true ∧ g.anti = true) := fun h => hh ⟨h.2, h.1, hs⟩
        simp only at he
        simp [step, seen, hw, hi, he, this, register, ho]
      | false =>
        simp only at he
        simp [step, seen, hw, hi, he, register, ho]
  | predicted e r => simp [outcome] at hd
  | time =>
    simp only [outcome, Option.some.injEq] at hd
    subst hd
    simp [step, time, hw, hi, register, ho]
  | heard => simp [outcome] at hd

theorem told {g : Goal} : ∀ (es : List Event) (s : State), s.watched = true → s.inv = false → s.outs = [] → (∀ ev ∈ es, Quiet g ev) →
    (∀ ev ∈ es, ¬ Handed g ev) → (run g s es).outs = (wanted g es).toList
  | [], s, _, _, ho, _, _ => by simp [run, wanted, ho]
  | ev :: es, s, hw, hi, ho, hq, hh => by
    have hq' : ∀ ev ∈ es, Quiet g ev := fun x hx => hq x (List.mem_cons_of_mem _ hx)
    have hh' : ∀ ev ∈ es, ¬ Handed g ev := fun x hx => hh x (List.mem_cons_of_mem _ hx)
    cases hd : outcome g ev with
    | none =>
      have : run g s [ev] = s := idle [ev] s hi ho (by intro x hx; exact hq x (by simp_all)) (by intro x hx; simp_all)
      have h1 : step g s ev = s := this
      rw [run_cons, h1, told es s hw hi ho hq' hh']
      simp [wanted, hd]
    | some o =>
      obtain ⟨a, b⟩ := decides hw hi ho (hh ev (List.mem_cons_self ..)) hd
      rw [run_cons, (unwatched es _ b hq').1, a]
      simp [wanted, hd]

/-- Of an invalidated goal the monitor tells nothing. -/
theorem invalidated {g : Goal} : ∀ (es : List Event) (s : State), s.inv = true → (∀ ev ∈ es, Quiet g ev) ∨ s.tpx = false →
    (run g s es).outs = s.outs ∧ (run g s es).inv = true
  | [], _, hi, _ => ⟨rfl, hi⟩
  | ev :: es, s, hi, hq => by
    rw [run_cons]
    have hq' : (∀ ev ∈ es, Quiet g ev) ∨ s.tpx = false := hq.imp_left fun h x hx => h x (List.mem_cons_of_mem _ hx)
    have key : (step g s ev).outs = s.outs ∧ (step g s ev).inv = true ∧ (s.tpx = false → (step g s ev).tpx = false) := by
      cases ev with
      | seen e => cases hw : s.watched <;> simp [step, seen, hw, hi]
      | predicted e r =>
        have : step g s (.predicted e r) = s := by
          show (if s.tpx then ack g s e r else s) = s
          rcases hq with h | h
          · rw [ack_quiet (h _ (List.mem_cons_self ..))]; simp
          · simp [h]
        rw [this]; exact ⟨rfl, hi, id⟩
      | time => cases hw : s.watched <;> simp [step, time, hw, hi]
      | heard =>
        show (if s.outs = [] then s else { s with tpx := false }).outs = _ ∧ (if s.outs = [] then s else { s with tpx := false }).inv = _ ∧
          (_ → (if s.outs = [] then s else { s with tpx := false }).tpx = _)
        split
        · exact ⟨rfl, hi, id⟩
        · exact ⟨rfl, hi, fun _ => rfl⟩
    obtain ⟨a, b⟩ := invalidated es (step g s ev) key.2.1 (hq'.imp_right key.2.2)
    exact ⟨a.trans key.1, b⟩

/-- C180, in part.  A goal that something is there has the outcome that is wanted, in all histories.  So has a goal that something is absent,
if it is not reached by a fact that excludes that thing and no prediction of such a fact comes true.  If the fact that decides is one,
nothing is told unless a prediction of one comes true; and if one does, of a goal with an extractor and the root of a simulation, and
the focus gets the outcome before another does, that is told, once, whatever comes later; also if the prediction comes true before
the monitor has seen anything that decides. -/
theorem C180_outcome_partial :
    (∀ (g : Goal) (tpx : Bool) (es : List Event), g.anti = false → (run g { tpx } es).outs = (wanted g es).toList) ∧
    (∀ (g : Goal) (tpx : Bool) (es : List Event), (∀ ev ∈ es, Quiet g ev) → (∀ ev ∈ es, ¬ Handed g ev) →
      (run g { tpx } es).outs = (wanted g es).toList) ∧
    (∀ (g : Goal) (tpx : Bool) (es₀ es₁ : List Event) (e : Ev), (∀ ev ∈ es₀, Quiet g ev ∧ outcome g ev = none) → Excludes g e →
      (∀ ev ∈ es₁, Quiet g ev) → (run g { tpx } (es₀ ++ .seen e :: es₁)).outs = []) ∧
    (∀ (g : Goal) (es₀ es₁ es₂ es₃ : List Event) (e e' : Ev) (r : Option Rdx), (∀ ev ∈ es₀, Quiet g ev ∧ outcome g ev = none) →
      Excludes g e → (∀ ev ∈ es₁, Quiet g ev) → Excludes g e' → Expected r → (∀ ev ∈ es₂, Quiet g ev) → g.sim = true → g.root = true →
      (run g { tpx := true } (es₀ ++ .seen e :: (es₁ ++ .predicted e' r :: (es₂ ++ .heard :: es₃)))).outs = [(true, some e'.id)]) ∧
    (∀ (g : Goal) (es₀ es₂ es₃ : List Event) (e' : Ev) (r : Option Rdx), (∀ ev ∈ es₀, Quiet g ev ∧ outcome g ev = none) →
      Excludes g e' → Expected r → (∀ ev ∈ es₂, Quiet g ev) → g.sim = true → g.root = true →
      (run g { tpx := true } (es₀ ++ .predicted e' r :: (es₂ ++ .heard :: es₃))).outs = [(true, some e'.id)]) := by
  have hand : ∀ (g : Goal) (tpx : Bool) (es₀ : List Event) (e : Ev), (∀ ev ∈ es₀, Quiet g ev ∧ outcome g ev = none) → Excludes g e →
      step g (run g { tpx } es₀) (.seen e) = { tpx, watched := false } := by
    intro g tpx es₀ e h he
    rw [idle es₀ _ rfl rfl (fun x hx => (h x hx).1) (fun x hx => (h x hx).2)]
    have hp : isEvidence g.anti e = .pos := by rw [isEvidence_shows, he.2.2]
    rw [he.1] at hp
    simp [step, seen, he.1, he.2.1, hp]
  refine ⟨?_, ?_, ?_, ?_, ?_⟩
  · intro g tpx es ha
    refine told es _ rfl rfl rfl ?_ ?_
    · intro ev _
      cases ev with
      | predicted e r => intro h; have h1 := h.1; rw [ha] at h1; exact absurd h1 (by decide)
      | _ => trivial
    · intro ev _ h
      cases ev with
      | seen e => have := h.1; rw [ha] at this; exact absurd this (by decide)
      | _ => exact h
  · intro g tpx es hq hh
    exact told es _ rfl rfl rfl hq hh
  · intro g tpx es₀ es₁ e h he h1
    rw [run_append, run_cons, hand g tpx es₀ e h he]
    exact (unwatched es₁ _ rfl h1).1
  · intro g es₀ es₁ es₂ es₃ e e' r h he h1 he' hr h2 hs hro
    rw [run_append, run_cons, hand g true es₀ e h he, run_append, run_cons]
    obtain ⟨a, b, c⟩ := unwatched (g := g) es₁ { tpx := true, watched := false } rfl h1
    have c := c rfl
    generalize run g { tpx := true, watched := false } es₁ = s at a b c
    have hs1 : step g s (.predicted e' r) = register s true (some e'.id) := by
      show (if s.tpx then ack g s e' r else s) = _
      rw [if_pos c, ack_expected he' hr hs hro]
    rw [hs1, run_append, run_cons]
    have ho : (register s true (some e'.id)).outs = [(true, some e'.id)] := by
      show s.outs ++ _ = _
      rw [a]; rfl
    obtain ⟨a2, b2, _⟩ := unwatched (g := g) es₂ (register s true (some e'.id)) b h2
    rw [ho] at a2
    generalize run g (register s true (some e'.id)) es₂ = s2 at a2 b2
    have h3 : step g s2 .heard = { s2 with tpx := false } := by simp [step, a2]
    rw [h3, over es₃ { s2 with tpx := false } b2 rfl]
    exact a2
  · intro g es₀ es₂ es₃ e' r h he' hr h2 hs hro
    rw [run_append, idle es₀ _ rfl rfl (fun x hx => (h x hx).1) (fun x hx => (h x hx).2), run_cons]
    have hs1 : step g { tpx := true } (.predicted e' r) = register { tpx := true } true (some e'.id) := by
      show (if true = true then ack g { tpx := true } e' r else { tpx := true }) = _
      rw [if_pos rfl, ack_expected he' hr hs hro]
    rw [hs1, run_append, run_cons]
    obtain ⟨a2, b2⟩ := invalidated (g := g) es₂ (register { tpx := true } true (some e'.id)) rfl (.inl h2)
    have a2 : (run g (register { tpx := true } true (some e'.id)) es₂).outs = [(true, some e'.id)] := a2
    generalize run g (register { tpx := true } true (some e'.id)) es₂ = s2 at a2 b2
    have h3 : step g s2 .heard = { s2 with tpx := false } := by simp [step, a2]
    rw [h3, (invalidated es₃ { s2 with tpx := false } b2 (.inr rfl)).1]
    exact a2

/-- A goal that something is absent, and a fact that excludes that thing. -/
def g₁ : Goal := ⟨true, true, true⟩
def e₁ : Ev := ⟨7, true, .counter, true, true⟩
def r₁ : Option Rdx := some ⟨true, 2, true⟩

/-- C180 is violated.  The goal is reached by a fact that excludes its target, and has no outcome, although its time comes: no model
predicted the fact.  If two models predicted it, the goal has two outcomes; and if it ends by its time before a prediction is seen to come
true, it has a failure and a success. -/
theorem C180_outcome_violated :
    ¬ C180_full ∧
    (wanted g₁ [.seen e₁, .time] = some (true, some 7) ∧ (run g₁ { tpx := true } [.seen e₁, .time]).outs = []) ∧
    (run g₁ { tpx := true } [.seen e₁, .predicted e₁ r₁, .predicted e₁ r₁, .heard]).outs = [(true, some 7), (true, some 7)] ∧
    (run g₁ { tpx := true } [.time, .predicted e₁ r₁, .heard]).outs = [(false, none), (true, some 7)] := by
  refine ⟨fun h => ?_, ⟨by decide, by decide⟩, by decide, by decide⟩
  have := h g₁ true [.seen e₁, .time]
  exact absurd this (by decide)

/-- The hypotheses are met: by a goal that something is there and fails by a fact that excludes it, after an input that has nothing to do with
it; by a goal that something is absent, of which the absence is seen; and by one of which a prediction comes true. -/
theorem C180_nonvacuous :
    (run ⟨false, true, true⟩ { tpx := true } [.seen ⟨3, true, .other, true, true⟩, .predicted e₁ r₁, .seen e₁, .time]).outs
      = [(false, some 7)] ∧
    (run g₁ { tpx := false } [.heard, .seen ⟨4, false, .same, true, false⟩, .time]).outs = [(true, some 4)] ∧
    (run g₁ { tpx := true } [.seen e₁, .time, .predicted e₁ r₁, .heard, .predicted e₁ r₁, .time]).outs = [(true, some 7)] ∧
    (run g₁ { tpx := true } [.predicted e₁ r₁, .seen e₁, .heard, .time]).outs = [(true, some 7)] ∧
    Excludes g₁ e₁ ∧ Expected r₁ ∧ Quiet g₁ (.predicted ⟨4, false, .same, true, false⟩ none) ∧
    ¬ Handed g₁ (.seen ⟨4, false, .same, true, false⟩) := by
  refine ⟨by decide, by decide, by decide, by decide, ⟨rfl, rfl, by decide⟩, ⟨_, rfl, rfl, by decide, rfl⟩, ?_, ?_⟩
  · intro h; exact absurd h.2.1 (by decide)
  · intro h; exact absurd h.2.1 (by decide)

end Verif.Ackg
