import Verif.Focus.Props
import Verif.Focus.Targets
/-!
# C109 over histories: what was kept back is not forgotten
-/
namespace Verif.Focus
open Verif.Observe (Sync)
open Classical in
/-- An extractor after an input: a new match is remembered, and the extractor of a goal that takes the input keeps it. -/
noncomputable def after (E : Env) (x : In) (t : Tpx) : Tpx :=
  { t with
    maps := if NewMatch E t x then t.maps ++ [x.fact] else t.maps
    inputs := if Interested E t x ∧ t.kind = .goal then t.inputs ++ [x.view] else t.inputs }

theorem takeInput_after {E : Env} {now : Int} {t : Tpx} {s : St} {x : In} {r : Filtered}
    (h : takeInput E now t s x = some r) : r.tpx = after E x t := by
  have ht := (takeInput_step h).1
  unfold takeInput at h
  obtain ⟨q, hq, rfl⟩ := Option.map_eq_some_iff.1 h
  have hq' : q.taken = true ↔ Interested E t x := by
    rw [← ht]
    split <;> rfl
  have main : q.tpx = { t with maps := (after E x t).maps } := by
    unfold filter at hq
    unfold after
    dsimp only
    by_cases h1 : E.shares t.target x.fact = true
    · rw [if_pos h1] at hq
      cases hq
      rw [if_neg (fun hn : NewMatch E t x => by rw [hn.apart] at h1; cases h1)]
    · rw [if_neg h1] at hq
      by_cases h2 : E.full t.target = true
      · rw [if_pos h2] at hq
        cases hq
        rw [if_neg (fun hn : NewMatch E t x => by rw [hn.open_] at h2; cases h2)]
      · rw [if_neg h2] at hq
        by_cases h3 : (t.maps.any fun m => E.sharesVia t.target m x.fact) = true
        · rw [if_pos h3] at hq
          cases hq
          rw [if_neg]
          intro hn
          obtain ⟨m, hm, hs⟩ := List.any_eq_true.1 h3
          rw [hn.new m hm] at hs; cases hs
        · rw [if_neg h3] at hq
          by_cases h4 : E.fits x.fact t.target = true
          · rw [if_pos h4] at hq
            obtain ⟨p, hp, rfl⟩ := Option.map_eq_some_iff.1 hq
            rw [if_pos]
            refine ⟨by simpa using h2, by simpa using h1, ?_, h4⟩
            intro m hm
            by_contra hc
            exact h3 (List.any_eq_true.2 ⟨m, hm, by simpa using hc⟩)
          · rw [if_neg h4] at hq
            cases hq
            rw [if_neg (fun hn : NewMatch E t x => h4 hn.fits)]
  by_cases hi : Interested E t x ∧ t.kind = .goal
  · rw [if_pos (by simp [hq'.2 hi.1, hi.2])]
    dsimp only
    rw [main]
    simp [after, hi]
  · rw [if_neg (by
      intro hc
      rw [Bool.and_eq_true] at hc
      exact hi ⟨hq'.1 hc.1, of_decide_eq_true hc.2⟩), main]
    simp [after, hi]

theorem dispatch_after {E : Env} {now : Int} {x : In} :
    ∀ {ts : List Tpx} {inj : Bool} {s : St} {d : Dispatched}, dispatch E now x ts inj s = some d →
      d.tpxs = ts.map (after E x) := by
  intro ts
  induction ts with
  | nil => intro inj s d h; cases h; rfl
  | cons t ts ih =>
    intro inj s d h
    unfold dispatch at h
    obtain ⟨r, hr, h⟩ := Option.bind_eq_some_iff.1 h
    have h1 := takeInput_after hr
    dsimp only at h
    split at h
    · obtain ⟨p, hp, h⟩ := Option.bind_eq_some_iff.1 h
      obtain ⟨d', hd', rfl⟩ := Option.map_eq_some_iff.1 h
      rw [List.map_cons, ← h1, ← ih hd']
    · obtain ⟨d', hd', rfl⟩ := Option.map_eq_some_iff.1 h
      rw [List.map_cons, ← h1, ← ih hd']

/-- C109, what the extractors remember: each that leaves something open remembers the inputs that match it and have no value
in common with earlier ones; each of a goal keeps the inputs that are of interest to it; nothing else changes. -/
theorem C109_remembers (E : Env) (now : Int) (s : St) (x : In) (r : St × List Eff) (hp : E.passThrough = false)
    (h : reduce E now s (.fact x) = some r) :
    r.1.goals = s.goals.map (after E x) ∧ r.1.preds = s.preds.map (after E x) := by
  simp only [reduce] at h
  rw [if_neg (by rw [hp]; simp)] at h
  obtain ⟨d, hd, h⟩ := Option.bind_eq_some_iff.1 h
  obtain ⟨d', hd', h⟩ := Option.map_eq_some_iff.1 h
  cases h
  exact ⟨dispatch_after hd, dispatch_after hd'⟩

/-! ## What is kept back -/

/-- Some target leaves something open and takes no interest in `y`: it may be needed later. -/
def Pending (E : Env) (ts : List Tpx) (y : In) : Prop := ∃ t ∈ ts, E.full t.target = false ∧ ¬ Interested E t y

theorem step_new {E : Env} {now : Int} {y : In} {t : Tpx} {cs cs' : List Cached} {os : List Out}
    (h : Step E now y t cs os cs') (h0 : ∀ c ∈ cs, c.input.view ≠ y.view) :
    Kept y cs' ∨ ((∀ c ∈ cs', c.input.view ≠ y.view) ∧ ¬ (E.full t.target = false ∧ ¬ Interested E t y)) := by
  cases h with
  | same _ hs =>
    refine .inr ⟨h0, ?_⟩
    rintro ⟨h1, h2⟩
    rcases hs with h | h
    · exact h2 h
    · rw [h1] at h; cases h
  | recall hm =>
    refine .inr ⟨?_, fun h => h.2 hm.interested⟩
    intro c hc
    obtain ⟨b, hb, rfl⟩ := List.mem_map.1 hc
    rw [upd_input]
    exact h0 b (sweep_sub.subset hb)
  | keep _ _ =>
    left
    have hf : (find E now y.view cs).2 = false := by
      by_contra hc
      obtain ⟨c, hc, hv⟩ := find_found.1 (by simpa using hc)
      exact h0 c (find_sub.subset hc) hv
    rw [hf, if_neg (by simp)]
    exact ⟨⟨y, false⟩, by simp, rfl, rfl⟩

theorem dispatch_pending {E : Env} {now : Int} {y : In} (hy : now - y.ijt ≤ E.thz) :
    ∀ {ts : List Tpx} {inj : Bool} {s : St} {d : Dispatched}, dispatch E now y ts inj s = some d →
      (∀ c ∈ s.cache, c.input.view ≠ y.view) →
      (∀ g ∈ E.groups, 1 ≤ cnt (outs d.effs) y.view g.id) ∨ Kept y d.st.cache ∨
        ((∀ c ∈ d.st.cache, c.input.view ≠ y.view) ∧ ¬ Pending E ts y) := by
  intro ts
  induction ts with
  | nil => intro inj s d h h0; cases h; exact .inr (.inr ⟨h0, fun ⟨t, ht, _⟩ => by cases ht⟩)
  | cons t ts ih =>
    intro inj s d h h0
    obtain ⟨os, s1, inj1, d', hst, hd', -, e2, ho⟩ := dispatch_cons h
    have hcnt : ∀ g, cnt (outs d'.effs) y.view g ≤ cnt (outs d.effs) y.view g := by
      intro g
      rcases ho with ⟨-, -, -, ho⟩ | ⟨-, -, ho⟩
      · rw [ho, cnt_append, cnt_append]; omega
      · rw [ho, cnt_append]; omega
    rw [e2]
    rcases step_new hst h0 with hk | ⟨h1, h2⟩
    · rcases dispatch_kept hy hd' hk with h | h
      · exact .inl fun g hg => le_trans (h g hg) (hcnt _)
      · exact .inr (.inl h.1)
    · rcases ih hd' h1 with h | h | ⟨h3, h4⟩
      · exact .inl fun g hg => le_trans (h g hg) (hcnt _)
      · exact .inr (.inl h)
      · refine .inr (.inr ⟨h3, ?_⟩)
        rintro ⟨u, hu, hpu⟩
        rcases List.mem_cons.1 hu with rfl | hu
        · exact h2 hpu
        · exact h4 ⟨u, hu, hpu⟩

theorem reduce_pending {E : Env} {now : Int} {s s' : St} {y : In} {f : List Eff} (hp : E.passThrough = false)
    (h : reduce E now s (.fact y) = some (s', f)) (hy : now - y.ijt ≤ E.thz) (h0 : N y.view s.cache = 0)
    (hpend : Pending E (s.goals ++ s.preds) y) :
    (∀ g ∈ E.groups, 1 ≤ sent f y.view g.id) ∨ Kept y s'.cache := by
  obtain ⟨d, d', e1, e2, rfl, e4⟩ := reduce_sel hp h
  rw [e4]
  have hs : ∀ g, sent (d.effs ++ d'.effs) y.view g = cnt (outs d.effs) y.view g + cnt (outs d'.effs) y.view g :=
    fun g => sent_append ..
  rcases dispatch_pending hy e1 (N_zero.1 h0) with h | h | ⟨h1, h2⟩
  · left; intro g hg; rw [hs]; have := h g hg; omega
  · rcases dispatch_kept hy e2 h with h | h
    · left; intro g hg; rw [hs]; have := h g hg; omega
    · exact .inr h.1
  · rcases dispatch_pending hy e2 h1 with h | h | ⟨-, h4⟩
    · left; intro g hg; rw [hs]; have := h g hg; omega
    · exact .inr h
    · obtain ⟨t, ht, h⟩ := hpend
      rcases List.mem_append.1 ht with ht | ht
      · exact absurd ⟨t, ht, h⟩ h2
      · exact absurd ⟨t, ht, h⟩ h4

theorem reduce_kept {E : Env} {now : Int} {s s' : St} {e : Ev} {y : In} {f : List Eff} (hp : E.passThrough = false)
    (h : reduce E now s e = some (s', f)) (hn : ∀ x o, e ≠ .perf x o) (hy : now - y.ijt ≤ E.thz) (hk : Kept y s.cache) :
    (∀ g ∈ E.groups, 1 ≤ sent f y.view g.id) ∨
      (Kept y s'.cache ∧ ∀ x, e = .fact x → ¬ Recalls E s x y) := by
  by_cases hf : ∃ x, e = .fact x
  · obtain ⟨x, rfl⟩ := hf
    obtain ⟨d, d', e1, e2, rfl, e4⟩ := reduce_sel hp h
    rw [e4]
    have hs : ∀ g, sent (d.effs ++ d'.effs) y.view g = cnt (outs d.effs) y.view g + cnt (outs d'.effs) y.view g :=
      fun g => sent_append ..
    rcases dispatch_kept hy e1 hk with h | ⟨h, hn1⟩
    · left; intro g hg; rw [hs]; have := h g hg; omega
    · rcases dispatch_kept hy e2 h with h | ⟨h, hn2⟩
      · left; intro g hg; rw [hs]; have := h g hg; omega
      · refine .inr ⟨h, ?_⟩
        rintro _ ⟨⟩ ⟨-, t, ht, k1, k2, k3, k4, k5⟩
        rcases List.mem_append.1 ht with ht | ht
        · exact hn1 ⟨t, ht, ⟨k1, k2, k3, k4⟩, k5⟩
        · exact hn2 ⟨t, ht, ⟨k1, k2, k3, k4⟩, k5⟩
  · right
    rw [(reduce_still h (fun x hx => hf ⟨x, hx⟩) hn).2]
    exact ⟨hk, fun x hx => absurd ⟨x, hx⟩ hf⟩

theorem run_kept {E : Env} (hp : E.passThrough = false) {y : In} :
    ∀ {es : List (Int × Ev)} {s : St} {r : St × List (List Eff)}, run E s es = some r → NoPerf es →
      (∀ e ∈ es, e.1 - y.ijt ≤ E.thz) → Kept y s.cache →
      (∀ g ∈ E.groups, 1 ≤ sent r.2.flatten y.view g.id) ∨ Kept y r.1.cache := by
  intro es
  induction es with
  | nil => intro s r h _ _ hk; cases h; exact .inr hk
  | cons a es ih =>
    intro s r h hn hy hk
    obtain ⟨n, e⟩ := a
    rw [run] at h
    obtain ⟨p, hp1, h⟩ := Option.bind_eq_some_iff.1 h
    obtain ⟨q, hq, rfl⟩ := Option.map_eq_some_iff.1 h
    simp only [List.flatten_cons, sent_append]
    rcases reduce_kept (s' := p.1) (f := p.2) hp hp1 (hn (n, e) List.mem_cons_self) (hy (n, e) List.mem_cons_self) hk with
      h | ⟨h, -⟩
    · left; intro g hg; have := h g hg; omega
    · rcases ih hq (fun e he => hn e (List.mem_cons_of_mem _ he)) (fun e he => hy e (List.mem_cons_of_mem _ he)) h with h | h
      · left; intro g hg; have := h g hg; omega
      · exact .inr h

theorem run_append {E : Env} : ∀ {a b : List (Int × Ev)} {s : St} {r : St × List (List Eff)},
    run E s (a ++ b) = some r →
      ∃ p q, run E s a = some p ∧ run E p.1 b = some q ∧ r = (q.1, p.2 ++ q.2) := by
  intro a
  induction a with
  | nil => intro b s r h; exact ⟨(s, []), r, rfl, h, rfl⟩
  | cons e a ih =>
    intro b s r h
    obtain ⟨n, e⟩ := e
    rw [List.cons_append, run] at h
    obtain ⟨p, hp, h⟩ := Option.bind_eq_some_iff.1 h
    obtain ⟨q, hq, rfl⟩ := Option.map_eq_some_iff.1 h
    obtain ⟨p', q', h1, h2, rfl⟩ := ih hq
    refine ⟨(p'.1, p.2 :: p'.2), q', ?_, h2, rfl⟩
    rw [run, hp]
    simp [h1]

theorem views_append (a b : List (Int × Ev)) : views (a ++ b) = views a ++ views b := by simp [views]

theorem N_run {E : Env} (hd : (E.groups.map Grp.id).Nodup) (v : Nat) :
    ∀ {es : List (Int × Ev)} {s : St} {r : St × List (List Eff)}, run E s es = some r → NoPerf es → v ∉ views es →
      N v s.cache = 0 → N v r.1.cache = 0 := by
  intro es
  induction es with
  | nil => intro s r h _ _ h0; cases h; exact h0
  | cons a es ih =>
    intro s r h hp hv h0
    obtain ⟨n, e⟩ := a
    rw [run] at h
    obtain ⟨p, hp1, h⟩ := Option.bind_eq_some_iff.1 h
    obtain ⟨q, hq, rfl⟩ := Option.map_eq_some_iff.1 h
    have hv1 : v ∉ views es := by
      intro hm; apply hv
      unfold views at hm ⊢
      rw [List.filterMap_cons]
      split
      · exact hm
      · exact List.mem_cons_of_mem _ hm
    have i2 := (reduce_other (s' := p.1) (f := p.2) (v := v) hd hp1 (by
      rintro x rfl rfl
      exact hv (by simp [views])) (hp (n, e) List.mem_cons_self) 0).2
    have i3 : N v p.1.cache = 0 := by omega
    exact ih (r := q) hq (fun e he => hp e (List.mem_cons_of_mem _ he)) hv1 i3

/-- C109 over histories: an input `y` that some open target might need, and takes no interest in yet, is sent to every group
by the time that an input `x` recalls it, if this is within the time horizon, whatever happens in between. -/
theorem C109_recalled (E : Env) (pre mid : List (Int × Ev)) (n m : Int) (x y : In) (p q : St × List (List Eff))
    (r : St × List (List Eff)) (hd : (E.groups.map Grp.id).Nodup) (hp : E.passThrough = false)
    (hv : (views (pre ++ (n, .fact y) :: mid)).Nodup) (hn : NoPerf (pre ++ (n, .fact y) :: mid))
    (hpre : run E {} pre = some p) (hpend : Pending E (p.1.goals ++ p.1.preds) y)
    (hmid : run E {} (pre ++ (n, .fact y) :: mid) = some q) (hr : Recalls E q.1 x y)
    (hrun : run E {} (pre ++ (n, .fact y) :: mid ++ [(m, .fact x)]) = some r)
    (hold : ∀ e ∈ (n, .fact y) :: mid ++ [(m, .fact x)], e.1 - y.ijt ≤ E.thz) :
    ∀ g ∈ E.groups, 1 ≤ sent r.2.flatten y.view g.id := by
  obtain ⟨q', z, h1, h2, rfl⟩ := run_append hrun
  rw [hmid] at h1
  cases h1
  obtain ⟨p', w, h3, h4, rfl⟩ := run_append hmid
  rw [hpre] at h3
  cases h3
  rw [run] at h4
  obtain ⟨u, hu, h4⟩ := Option.bind_eq_some_iff.1 h4
  obtain ⟨k, hk, rfl⟩ := Option.map_eq_some_iff.1 h4
  rw [run] at h2
  obtain ⟨l, hl, h2⟩ := Option.bind_eq_some_iff.1 h2
  cases h2
  have hsum : ∀ g, sent (p.2 ++ u.2 :: k.2 ++ [l.2]).flatten y.view g =
      sent p.2.flatten y.view g + (sent u.2 y.view g + (sent k.2.flatten y.view g + sent l.2 y.view g)) := by
    intro g
    simp only [List.flatten_append, List.flatten_cons, sent_append, List.flatten_nil]
    have : sent [] y.view g = 0 := rfl
    omega
  have hvy : y.view ∉ views pre := by
    intro hm
    rw [views_append] at hv
    have hm' : y.view ∈ views ((n, .fact y) :: mid) := by simp [views]
    exact (List.nodup_append.1 hv).2.2 _ hm _ hm' rfl
  have h0 : N y.view p.1.cache = 0 :=
    N_run hd y.view hpre (fun e he => hn e (List.mem_append_left _ he)) hvy rfl
  have hmem : ∀ e ∈ mid, e ∈ (n, Ev.fact y) :: mid ++ [(m, .fact x)] := fun e he => by simp [he]
  intro g hg
  show 1 ≤ sent (p.2 ++ u.2 :: k.2 ++ [l.2]).flatten y.view g.id
  rw [hsum]
  rcases reduce_pending (s' := u.1) (f := u.2) hp hu (hold (n, .fact y) (by simp)) h0 hpend with h | h
  · have := h g hg
    omega
  · rcases run_kept hp hk (fun e he => hn e (by simp [he])) (fun e he => hold e (hmem e he)) h with h | h
    · have := h g hg
      omega
    · rcases reduce_kept (s' := l.1) (f := l.2) hp hl (by rintro _ _ ⟨⟩) (hold (m, .fact x) (by simp)) h with h | ⟨-, h⟩
      · have := h g hg
        omega
      · exact absurd hr (h x rfl)

/-- Fact 30 is given when target 3 is open, and fact 20 recalls it; a goal is produced in between. -/
theorem C109_recalled_nonvacuous :
    ∃ p q r, run (env109 false) {} [(0, .reduction true 3 false)] = some p ∧
      Pending (env109 false) (p.1.goals ++ p.1.preds) (in109 1 30 .once) ∧
      run (env109 false) {} [(0, .reduction true 3 false), (210, .fact (in109 1 30 .once)), (220, .reduction true 2 false)] = some q ∧
      Recalls (env109 false) q.1 (in109 0 20 .once) (in109 1 30 .once) ∧
      run (env109 false) {} [(0, .reduction true 3 false), (210, .fact (in109 1 30 .once)), (220, .reduction true 2 false),
        (250, .fact (in109 0 20 .once))] = some r ∧ sent r.2.flatten 1 8 = 1 := by
  refine ⟨_, _, _, rfl, ⟨{ target := 3, kind := .goal }, by simp [insert, buildTpx, env109], by decide, ?_⟩, rfl,
    ⟨rfl, { target := 3, kind := .goal }, ?_, by decide, by decide, by decide, by decide, by decide⟩, rfl, by decide +kernel⟩
  · rintro (h | ⟨-, ⟨m, hm, -⟩ | h⟩)
    · revert h; decide
    · cases hm
    · revert h; decide
  · decide +kernel

end Verif.Focus
