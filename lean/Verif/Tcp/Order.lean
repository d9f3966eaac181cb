import Verif.Tcp.Spec
/-!
# The order of messages (C151)
-/
namespace Verif.Tcp
open Verif.Atom Verif.Observe Verif.Screen

/-- Handling a message changes neither the queue nor the list of messages handled. -/
theorem handle_frame {E : Env} {w w' : World} {t : Int} {m : Msg} (h : handle E w t m = some w') :
    w'.queue = w.queue ∧ w'.handled = w.handled := by
  cases m with
  | setup s => simp only [handle, Option.some.injEq] at h; subst h; exact ⟨rfl, rfl⟩
  | data vs =>
    simp only [handle, Option.map_eq_some_iff] at h
    obtain ⟨r, _, rfl⟩ := h; exact ⟨rfl, rfl⟩
  | other => simp only [handle, Option.some.injEq] at h; subst h; exact ⟨rfl, rfl⟩

/-- A tick does nothing or handles the first message. -/
theorem tick_cases {E : Env} {w w' : World} {t : Int} (h : tick E w t = some w') :
    (w' = w ∧ (t < w.dev.last + (E.period * 8).tdiv 10 ∨ w.queue = [])) ∨
    ∃ m q w1, ¬ t < w.dev.last + (E.period * 8).tdiv 10 ∧ w.queue = m :: q ∧
      handle E { w with queue := q } t m = some w1 ∧
      w' = { w1 with dev := { w1.dev with last := t }, handled := w1.handled ++ [(t, m)] } := by
  unfold tick at h
  by_cases hd : t < w.dev.last + (E.period * 8).tdiv 10
  · rw [if_pos hd] at h; cases h; exact .inl ⟨rfl, .inl hd⟩
  · rw [if_neg hd] at h
    split at h
    · cases h; exact .inl ⟨rfl, .inr (by assumption)⟩
    · rename_i m q hq
      simp only [Option.map_eq_some_iff] at h
      obtain ⟨w1, h1, rfl⟩ := h
      exact .inr ⟨m, q, w1, hd, hq, h1, rfl⟩

/-- A command changes only whether the environment is started. -/
theorem eject_frame {d d' : Dev} {o : Obj} {a : Answer} {ms : List Sent} (h : eject d o = some (a, d', ms)) :
    d' = d ∨ d' = { d with started := true } := by
  unfold eject at h
  split at h
  · simp only [Option.some.injEq, ready] at h
    split at h
    · cases h; exact .inl rfl
    · split at h
      · cases h; exact .inl rfl
      · cases h; exact .inr rfl
  · split at h
    · cases h; exact .inl rfl
    · simp only [perform, Option.bind_eq_some_iff] at h
      obtain ⟨obj, _, h⟩ := h
      split at h
      · simp only [Option.map_eq_some_iff] at h
        obtain ⟨r, _, h⟩ := h
        split at h <;> (cases h; exact .inl rfl)
      · cases h; exact .inl rfl

/-- What holds of the order along a history. -/
structure Ordered (E : Env) (w : World) (ms : List Msg) : Prop where
  sub : (w.handled.map (·.2) ++ w.queue).Sublist ms
  apart : Apart ((E.period * 8).tdiv 10) (w.handled.map (·.1))
  last : w.dev.last = ((w.handled.map (·.1)).getLast?).getD 0
  pos : ∀ u ∈ w.handled.map (·.1), u ≤ w.dev.last

theorem Ordered.tick {E : Env} {w w' : World} {ms : List Msg} {t : Int} (hp : 0 ≤ E.period) (H : Ordered E w ms)
    (h : Tcp.tick E w t = some w') : Ordered E w' ms := by
  rcases tick_cases h with ⟨rfl, _⟩ | ⟨m, q, w1, hd, hq, h1, rfl⟩
  · exact H
  · obtain ⟨e1, e2⟩ := handle_frame h1
    have hg : 0 ≤ (E.period * 8).tdiv 10 := Int.tdiv_nonneg (by omega) (by decide)
    refine ⟨?_, ?_, ?_, ?_⟩
    · have := H.sub
      simp only [e1, e2, List.map_append, List.map_cons, List.map_nil, List.append_assoc, List.singleton_append]
      rwa [hq] at this
    · unfold Apart
      simp only [e2, List.map_append, List.map_cons, List.map_nil, List.pairwise_append, List.pairwise_cons,
        List.Pairwise.nil, List.not_mem_nil, false_imp_iff, implies_true, and_true, List.mem_singleton, true_and]
      refine ⟨H.apart, fun a ha b hb => ?_⟩
      subst hb
      have := H.pos a ha
      omega
    · simp only [e2, List.map_append, List.map_cons, List.map_nil, List.getLast?_append, List.getLast?_singleton,
        Option.some_or, Option.getD_some]
    · simp only [e2, List.map_append, List.map_cons, List.map_nil, List.mem_append, List.mem_singleton]
      rintro u (hu | rfl)
      · have := H.pos u hu
        omega
      · exact Int.le_refl _

theorem Ordered.step {E : Env} {w w' : World} {ms : List Msg} {e : Event} (hp : 0 ≤ E.period) (H : Ordered E w ms)
    (h : Tcp.step E w e = some w') : Ordered E w' (ms ++ received [e]) := by
  cases e with
  | receive m =>
    simp only [Tcp.step, Option.some.injEq] at h; subst h
    refine ⟨?_, H.apart, H.last, H.pos⟩
    show (w.handled.map (·.2) ++ (w.queue ++ [m])).Sublist (ms ++ [m])
    rw [← List.append_assoc]
    exact H.sub.append (List.Sublist.refl _)
  | lose i =>
    simp only [Tcp.step, Option.some.injEq] at h; subst h
    refine ⟨?_, H.apart, H.last, H.pos⟩
    show (w.handled.map (·.2) ++ w.queue.eraseIdx i).Sublist (ms ++ [])
    rw [List.append_nil]
    exact ((List.Sublist.refl _).append (List.eraseIdx_sublist ..)).trans H.sub
  | tick t => simpa only [received, List.append_nil] using H.tick hp h
  | eject o =>
    simp only [Tcp.step, Option.map_eq_some_iff] at h
    obtain ⟨⟨a, d', s⟩, h1, rfl⟩ := h
    have hl : d'.last = w.dev.last := by rcases eject_frame h1 with rfl | rfl <;> rfl
    refine ⟨?_, H.apart, ?_, ?_⟩
    · simpa only [received, List.append_nil] using H.sub
    · show d'.last = _; rw [hl]; exact H.last
    · show ∀ u ∈ _, u ≤ d'.last
      rw [hl]; exact H.pos

theorem received_cons (e : Event) (es : List Event) : received (e :: es) = received [e] ++ received es := by
  cases e <;> rfl

theorem Ordered.run {E : Env} (hp : 0 ≤ E.period) (es : List Event) : ∀ {w w' : World} {ms : List Msg},
    Ordered E w ms → Tcp.run E w es = some w' → Ordered E w' (ms ++ received es) := by
  induction es with
  | nil => intro w w' ms H h; cases h; rw [received, List.append_nil]; exact H
  | cons e es ih =>
    intro w w' ms H h
    simp only [Tcp.run, Option.bind_eq_some_iff] at h
    obtain ⟨w1, h1, h2⟩ := h
    have := ih (H.step hp h1) h2
    rwa [received_cons, ← List.append_assoc]

/-- Without loss, what is handled and what waits is what was received. -/
theorem lossless_run {E : Env} (es : List Event) : ∀ {w w' : World}, Lossless es → run E w es = some w' →
    w'.handled.map (·.2) ++ w'.queue = w.handled.map (·.2) ++ w.queue ++ received es := by
  induction es with
  | nil => intro w w' _ h; cases h; rw [received, List.append_nil]
  | cons e es ih =>
    intro w w' hl h
    simp only [run, Option.bind_eq_some_iff] at h
    obtain ⟨w1, h1, h2⟩ := h
    rw [ih (fun i hi => hl i (List.mem_cons_of_mem _ hi)) h2, received_cons, ← List.append_assoc]
    congr 1
    cases e with
    | receive m => simp only [step, Option.some.injEq] at h1; subst h1; simp [received]
    | lose i => exact absurd (List.mem_cons_self ..) (hl i)
    | tick t =>
      simp only [received, List.append_nil]
      rcases tick_cases h1 with ⟨rfl, _⟩ | ⟨m, q, w2, _, hq, h3, rfl⟩
      · rfl
      · obtain ⟨e1, e2⟩ := handle_frame h3
        simp [e1, e2, hq]
    | eject o =>
      simp only [step, Option.map_eq_some_iff] at h1
      obtain ⟨r, _, rfl⟩ := h1
      simp [received]

theorem start_world {E : Env} {s : Setup} {w : World} (h : start E s = some w) :
    ∃ d, load E (setup Dev.init s).1 = some d ∧ w = ⟨d, [], [], [], []⟩ := by
  simp only [start, Option.map_eq_some_iff] at h
  obtain ⟨d, h1, rfl⟩ := h
  exact ⟨d, h1, rfl⟩

theorem load_last {E : Env} {d d' : Dev} (h : load E d = some d') : d'.last = d.last ∧ d'.ids = d.ids ∧
    d'.metas = d.metas ∧ d'.commands = opcodes E d.commands ∧ findAll E d.entities = some d'.entities ∧
    findAll E d.objects = some d'.objects := by
  simp only [load, Option.bind_eq_some_iff, Option.map_eq_some_iff] at h
  obtain ⟨es, h1, os, h2, rfl⟩ := h
  exact ⟨rfl, rfl, rfl, rfl, h1, h2⟩

/-- **C151.** -/
theorem C151_messages_in_order : C151_full := by
  intro E s0 w0 w es hp h0 h
  obtain ⟨d, hl, rfl⟩ := start_world h0
  have hlast : d.last = 0 := (load_last hl).1
  have H0 : Ordered E ⟨d, [], [], [], []⟩ [] :=
    ⟨List.Sublist.refl _, List.Pairwise.nil, hlast, fun u hu => absurd hu List.not_mem_nil⟩
  have H := H0.run hp es h
  rw [List.nil_append] at H
  refine ⟨H.sub, fun hn => by simpa using lossless_run es hn h, H.apart, ?_⟩
  intro t w' ht hu hg m q hq
  rcases tick_cases ht with ⟨_, hlt | hq'⟩ | ⟨m', q', w1, _, hq', h1, rfl⟩
  · exfalso
    have hL := H.last
    cases hc : (w.handled.map (·.1)).getLast? with
    | none => rw [hc] at hL; simp only [Option.getD_none] at hL; omega
    | some u => rw [hc] at hL; have := hu u hc; simp only [Option.getD_some] at hL; omega
  · rw [hq] at hq'; cases hq'
  · rw [hq] at hq'; cases hq'
    obtain ⟨e1, e2⟩ := handle_frame h1
    exact ⟨e1, by rw [e2]⟩

/-- Two messages, one lost, ticks too soon and in time: one message handled at 100, the other at 200. -/
theorem C151_nonvacuous :
    let E : Env := ⟨fun _ => none, fun _ => none, fun _ => 0, fun _ => 0, 100⟩
    ∃ w0 w, start E ⟨[], [], [], []⟩ = some w0 ∧
      run E w0 [.receive .other, .receive (.data []), .receive .other, .tick 100, .lose 1, .tick 150, .tick 200] =
        some w ∧
      w.handled = [(100, .other), (200, .data [])] ∧ w.queue = [] := by
  refine ⟨_, _, rfl, rfl, ?_⟩
  decide +kernel

end Verif.Tcp
