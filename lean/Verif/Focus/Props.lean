import Verif.Focus.Counts
/-!
# C109 and C110: what focus passes on
-/
namespace Verif.Focus
open Verif.Observe (Sync)

/-! ## What is sent, and that it is -/

/-- The cells come from `x` and the cells of `C0`. -/
def From (x : In) (C0 cs : List Cached) : Prop :=
  ∀ c ∈ cs, c.input = x ∨ ∃ c0 ∈ C0, c0.input = c.input ∧ (c.injected = false → c0.injected = false)

theorem step_from {E : Env} {now : Int} {x : In} {t : Tpx} {C0 cs cs' : List Cached} {os : List Out}
    (h : Step E now x t cs os cs') (hf : From x C0 cs) : From x C0 cs' := by
  cases h with
  | same => exact hf
  | recall hn =>
    intro c hc
    obtain ⟨b, hb, rfl⟩ := List.mem_map.1 hc
    rw [upd_input]
    rcases hf b (sweep_sub.subset hb) with h | ⟨c0, h0, h1, h2⟩
    · exact .inl h
    · refine .inr ⟨c0, h0, h1, fun h => h2 ?_⟩
      unfold upd at h
      split at h
      · cases h
      · exact h
  | keep hi _ =>
    intro c hc
    split at hc
    · exact hf c (find_sub.subset hc)
    · rcases List.mem_append.1 hc with h | h
      · exact hf c (find_sub.subset h)
      · rw [List.mem_singleton.1 h]
        exact .inl rfl

/-- `y` is recalled by `x` through one of the targets. -/
def By (E : Env) (ts : List Tpx) (x y : In) : Prop :=
  ∃ t ∈ ts, NewMatch E t x ∧ E.sharesVia t.target x.fact y.fact = true

theorem step_outs {E : Env} {now : Int} {x : In} {t : Tpx} {C0 cs cs' : List Cached} {os : List Out}
    (h : Step E now x t cs os cs') (hf : From x C0 cs) :
    ∀ o ∈ os, ∃ g ∈ E.groups, (o = out E now x g ∧ Interested E t x) ∨
      ∃ c0 ∈ C0, c0.injected = false ∧ o = out E now c0.input g ∧ NewMatch E t x ∧
        E.sharesVia t.target x.fact c0.input.fact = true := by
  cases h with
  | same => intro o ho; cases ho
  | recall hn =>
    intro o ho
    unfold selOuts at ho
    obtain ⟨c, hc, ho⟩ := List.mem_flatMap.1 ho
    obtain ⟨g, hg, rfl⟩ := List.mem_map.1 ho
    rw [List.mem_filter] at hc
    have hs := hc.2
    unfold sel at hs
    rw [Bool.and_eq_true] at hs
    refine ⟨g, hg, ?_⟩
    rcases hf c (sweep_sub.subset hc.1) with h | ⟨c0, h0, h1, h2⟩
    · rw [h]; exact .inl ⟨rfl, hn.interested⟩
    · exact .inr ⟨c0, h0, h2 (by simpa using hs.1), by rw [h1], hn, by rw [h1]; exact hs.2⟩
  | keep => intro o ho; cases ho

theorem dispatch_from {E : Env} {now : Int} {x : In} {C0 : List Cached} :
    ∀ {ts : List Tpx} {inj : Bool} {s : St} {d : Dispatched}, dispatch E now x ts inj s = some d → From x C0 s.cache →
      From x C0 d.st.cache ∧
      ∀ o ∈ outs d.effs, ∃ g ∈ E.groups, (o = out E now x g ∧ ∃ t ∈ ts, Interested E t x) ∨
        ∃ c0 ∈ C0, c0.injected = false ∧ o = out E now c0.input g ∧ By E ts x c0.input := by
  intro ts
  induction ts with
  | nil => intro inj s d h hf; cases h; exact ⟨hf, fun o ho => by cases ho⟩
  | cons t ts ih =>
    intro inj s d h hf
    obtain ⟨os, s1, inj1, d', hst, hd', -, e2, ho⟩ := dispatch_cons h
    obtain ⟨i1, i2⟩ := ih hd' (step_from hst hf)
    rw [e2]
    refine ⟨i1, fun o hm => ?_⟩
    have a1 : o ∈ os → _ := step_outs hst hf o
    have a2 : o ∈ outs d'.effs → _ := i2 o
    have a3 : o ∈ os ∨ (o ∈ E.groups.map (out E now x) ∧ Interested E t x) ∨ o ∈ outs d'.effs := by
      rcases ho with ⟨hi, -, -, ho⟩ | ⟨-, -, ho⟩
      · rw [ho] at hm
        rcases List.mem_append.1 hm with hm | hm
        · rcases List.mem_append.1 hm with hm | hm
          · exact .inl hm
          · exact .inr (.inl ⟨hm, hi⟩)
        · exact .inr (.inr hm)
      · rw [ho] at hm
        rcases List.mem_append.1 hm with hm | hm
        · exact .inl hm
        · exact .inr (.inr hm)
    rcases a3 with h | ⟨h, hi⟩ | h
    · obtain ⟨g, hg, h⟩ := a1 h
      refine ⟨g, hg, ?_⟩
      rcases h with ⟨h1, h2⟩ | ⟨c0, h0, h1, h2, h3, h4⟩
      · exact .inl ⟨h1, t, List.mem_cons_self, h2⟩
      · exact .inr ⟨c0, h0, h1, h2, t, List.mem_cons_self, h3, h4⟩
    · obtain ⟨g, hg, rfl⟩ := List.mem_map.1 h
      exact ⟨g, hg, .inl ⟨rfl, t, List.mem_cons_self, hi⟩⟩
    · obtain ⟨g, hg, h⟩ := a2 h
      refine ⟨g, hg, ?_⟩
      rcases h with ⟨h1, u, hu, h2⟩ | ⟨c0, h0, h1, h2, u, hu, h3⟩
      · exact .inl ⟨h1, u, List.mem_cons_of_mem _ hu, h2⟩
      · exact .inr ⟨c0, h0, h1, h2, u, List.mem_cons_of_mem _ hu, h3⟩

theorem dispatch_ok {E : Env} {now : Int} {x : In} (hg : E.groups ≠ []) (hx : x.sync ≠ .onceAxiom) :
    ∀ (ts : List Tpx) (inj : Bool) (s : St), (∀ c ∈ s.cache, c.input.sync ≠ .onceAxiom) →
      ∃ d, dispatch E now x ts inj s = some d := by
  intro ts
  induction ts with
  | nil => intro inj s _; exact ⟨_, rfl⟩
  | cons t ts ih =>
    intro inj s hc
    obtain ⟨r, hr⟩ := takeInput_ok (now := now) t x hg hc
    have hc' : ∀ c ∈ r.st.cache, c.input.sync ≠ .onceAxiom := by
      intro c hm
      rcases step_from (C0 := s.cache) (takeInput_step hr).2
        (fun c h => .inr ⟨c, h, rfl, id⟩) c hm with h | ⟨c0, h0, h1, -⟩
      · rw [h]; exact hx
      · rw [← h1]; exact hc c0 h0
    unfold dispatch
    rw [hr, Option.bind_some]
    dsimp only
    split
    · obtain ⟨s', es, h1⟩ := injectStore_ok (now := now) r.st hg hx
      rw [h1, Option.bind_some]
      obtain ⟨d, hd⟩ := ih true s' (by rw [(injectStore_out h1).1]; exact hc')
      exact ⟨_, by rw [hd]; rfl⟩
    · obtain ⟨d, hd⟩ := ih inj r.st hc'
      exact ⟨_, by rw [hd]; rfl⟩

theorem dispatch_sends {E : Env} {now : Int} {x : In} (hd : (E.groups.map Grp.id).Nodup) :
    ∀ {ts : List Tpx} {inj : Bool} {s : St} {d : Dispatched}, dispatch E now x ts inj s = some d →
      (d.injected = true ↔ inj = true ∨ ∃ t ∈ ts, Interested E t x) ∧
      (inj = false → d.injected = true → ∀ g ∈ E.groups, 1 ≤ cnt (outs d.effs) x.view g.id) := by
  intro ts
  induction ts with
  | nil =>
    intro inj s d h
    cases h
    refine ⟨by simp, fun h1 h2 => ?_⟩
    rw [h1] at h2; cases h2
  | cons t ts ih =>
    intro inj s d h
    obtain ⟨os, s1, inj1, d', hst, hd', e1, e2, ho⟩ := dispatch_cons h
    obtain ⟨i1, i2⟩ := ih hd'
    rw [e1]
    rcases ho with ⟨hi, h1, h2, ho⟩ | ⟨hn, h1, ho⟩
    · subst h1 h2
      refine ⟨?_, fun _ _ g hg => ?_⟩
      · have : d'.injected = true := i1.2 (.inl rfl)
        simp [this, hi]
      · rw [ho, cnt_append, cnt_append, cnt_map_out E now x x.view _ hd g.id,
          if_pos ⟨rfl, List.mem_map.2 ⟨g, hg, rfl⟩⟩]
        omega
    · subst h1
      constructor
      · rw [i1]
        constructor
        · rintro (h | ⟨u, hu, h⟩)
          · exact .inl h
          · exact .inr ⟨u, List.mem_cons_of_mem _ hu, h⟩
        · rintro (h | ⟨u, hu, hiu⟩)
          · exact .inl h
          · rcases List.mem_cons.1 hu with rfl | hu
            · left
              by_contra hc
              exact hn ⟨hiu, by simpa using hc⟩
            · exact .inr ⟨u, hu, hiu⟩
      · intro hi hj g hg
        have := i2 hi hj g hg
        rw [ho, cnt_append]
        omega

/-- `y` is kept back. -/
def Kept (y : In) (cs : List Cached) : Prop := ∃ c ∈ cs, c.input = y ∧ c.injected = false

theorem cnt_selOuts {E : Env} {now : Int} {t via : Nat} {cs : List Cached} {c : Cached}
    (hc : c ∈ cs) (hs : sel E t via c = true) {g : Grp} (hg : g ∈ E.groups) :
    1 ≤ cnt (selOuts E now t via cs) c.input.view g.id := by
  unfold cnt
  refine List.countP_pos_iff.2 ⟨out E now c.input g, ?_, ?_⟩
  · exact List.mem_flatMap.2 ⟨c, List.mem_filter.2 ⟨hc, hs⟩, List.mem_map.2 ⟨g, hg, rfl⟩⟩
  · simp [out_src]

theorem step_kept {E : Env} {now : Int} {x y : In} {t : Tpx} {cs cs' : List Cached} {os : List Out}
    (h : Step E now x t cs os cs') (hy : now - y.ijt ≤ E.thz) (hk : Kept y cs) :
    (∀ g ∈ E.groups, 1 ≤ cnt os y.view g.id) ∨
      (Kept y cs' ∧ ¬ (NewMatch E t x ∧ E.sharesVia t.target x.fact y.fact = true)) := by
  obtain ⟨c, hc, rfl, hi⟩ := hk
  have hne : expired E now c = false := by
    unfold expired
    exact decide_eq_false (by omega)
  cases h with
  | same hn _ => exact .inr ⟨⟨c, hc, rfl, hi⟩, fun h => hn h.1⟩
  | recall hn =>
    have hsw : c ∈ sweep E now cs := by
      rcases sweep_lost (E := E) (now := now) hc with h | ⟨-, h⟩
      · exact h
      · rw [hne] at h; cases h
    by_cases hs : E.sharesVia t.target x.fact c.input.fact = true
    · exact .inl fun g hg => cnt_selOuts hsw (by simp [sel, hi, hs]) hg
    · refine .inr ⟨⟨upd E t.target x.fact c, List.mem_map.2 ⟨c, hsw, rfl⟩, upd_input .., ?_⟩, fun h => hs h.2⟩
      unfold upd
      rw [if_neg (by simp [sel, hs])]
      exact hi
  | keep hni hf =>
    have hfd : c ∈ (find E now x.view cs).1 := by
      rcases find_lost (E := E) (now := now) (v := x.view) hc with h | ⟨-, h⟩
      · exact h
      · rw [hne] at h; cases h
    refine .inr ⟨⟨c, ?_, rfl, hi⟩, fun h => hni h.1.interested⟩
    split
    · exact hfd
    · exact List.mem_append_left _ hfd

theorem dispatch_kept {E : Env} {now : Int} {x y : In} (hy : now - y.ijt ≤ E.thz) :
    ∀ {ts : List Tpx} {inj : Bool} {s : St} {d : Dispatched}, dispatch E now x ts inj s = some d → Kept y s.cache →
      (∀ g ∈ E.groups, 1 ≤ cnt (outs d.effs) y.view g.id) ∨ (Kept y d.st.cache ∧ ¬ By E ts x y) := by
  intro ts
  induction ts with
  | nil => intro inj s d h hk; cases h; exact .inr ⟨hk, fun ⟨t, ht, _⟩ => by cases ht⟩
  | cons t ts ih =>
    intro inj s d h hk
    obtain ⟨os, s1, inj1, d', hst, hd', -, e2, ho⟩ := dispatch_cons h
    have hcnt : ∀ g, cnt os y.view g + cnt (outs d'.effs) y.view g ≤ cnt (outs d.effs) y.view g := by
      intro g
      rcases ho with ⟨-, -, -, ho⟩ | ⟨-, -, ho⟩
      · rw [ho, cnt_append, cnt_append]; omega
      · rw [ho, cnt_append]
    rcases step_kept hst hy hk with h1 | ⟨h1, h2⟩
    · left
      intro g hg
      have := h1 g hg
      have := hcnt g.id
      omega
    · rcases ih hd' h1 with h3 | ⟨h3, h4⟩
      · left
        intro g hg
        have := h3 g hg
        have := hcnt g.id
        omega
      · right
        rw [e2]
        refine ⟨h3, ?_⟩
        rintro ⟨u, hu, hnm⟩
        rcases List.mem_cons.1 hu with rfl | hu
        · exact h2 hnm
        · exact h4 ⟨u, hu, hnm⟩

/-! ## C109 -/

theorem out_passed {E : Env} {now : Int} (hE : E.Ok now) {x : In} {g : Grp} (hg : g ∈ E.groups) :
    Passed E now (E.groups.headD ⟨0, 0⟩) x (out E now x g) := by
  have hm : E.groups.headD ⟨0, 0⟩ ∈ E.groups := by
    have := hE.some_
    cases h : E.groups with
    | nil => exact absurd h this
    | cons a as => simp
  have hgrid := Upr.C25_grid E.ref E.base (E.groups.headD ⟨0, 0⟩).upr now hE.base (hE.updated _ hm) hE.started
  generalize hg0 : E.groups.headD ⟨0, 0⟩ = g0 at hgrid hm ⊢
  obtain ⟨⟨n1, n2, n3⟩, ⟨p1, p2, p3⟩⟩ := hgrid
  have hu := hE.updated _ hm
  have hdiff : Upr.nextUprTime E.ref E.base g0.upr now - Upr.prevUprTime E.ref E.base g0.upr now = g0.upr * E.base := by
    unfold Upr.nextUprTime Upr.prevUprTime
    rw [if_neg (by omega), if_neg (by omega)]
    dsimp only
    omega
  have hk : ∃ k : Int, Upr.prevUprTime E.ref E.base g0.upr now - E.ref = k * (g0.upr * E.base) := by
    obtain ⟨k, hk⟩ := p1
    exact ⟨k, by rw [hk]; ring⟩
  have hs := out_src E now x g
  refine ⟨hs.1, ⟨g, hg, hs.2⟩, ?_, ?_, ?_, ?_, ?_⟩
  · unfold out; cases x.sync <;> rfl
  · unfold out; cases x.sync <;> rfl
  · intro h; unfold out; rw [h]; exact ⟨rfl, rfl⟩
  · rintro (h | h)
    · unfold out
      rw [h, hg0]
      exact ⟨rfl, _, _, rfl, p2, n2, hdiff, hk⟩
    · unfold out
      rw [h, hg0]
      exact ⟨rfl, _, _, rfl, p2, n2, hdiff, hk⟩
  · intro h; unfold out; rw [h, hg0]; exact ⟨rfl, rfl⟩

/-- C109, in part: if neither the input nor anything kept back is to be taken once as an axiom. A relevant input is sent
once or twice to each group, and once if no target leaves anything open or everything is passed; what is sent is as
`Passed` says; the rest is as stated. -/
theorem C109_focus_partial (E : Env) (now : Int) (s : St) (x : In) (hE : E.Ok now)
    (hv : (x.view :: s.cache.map (·.input.view)).Nodup) (hx : x.sync ≠ .onceAxiom)
    (hc : ∀ c ∈ s.cache, c.input.sync ≠ .onceAxiom) :
    ∃ r, reduce E now s (.fact x) = some r ∧
      (∀ g ∈ E.groups,
        (Relevant E s x → 1 ≤ sent r.2 x.view g.id ∧ sent r.2 x.view g.id ≤ 2 ∧
          ((E.passThrough = true ∨ ∀ t ∈ s.goals ++ s.preds, E.full t.target = true) → sent r.2 x.view g.id = 1)) ∧
        (¬ Relevant E s x → sent r.2 x.view g.id = 0)) ∧
      (∀ o ∈ outs r.2, o.src = x.view → Passed E now (E.groups.headD ⟨0, 0⟩) x o) ∧
      (∀ o ∈ outs r.2, o.src ≠ x.view →
        ∃ c ∈ s.cache, o.src = c.input.view ∧ c.injected = false ∧ Recalls E s x c.input ∧
          Passed E now (E.groups.headD ⟨0, 0⟩) c.input o) ∧
      (∀ c ∈ s.cache, c.injected = false → now - c.input.ijt ≤ E.thz → Recalls E s x c.input →
        ∀ g ∈ E.groups, sent r.2 c.input.view g.id = 1) := by
  rw [List.nodup_cons] at hv
  have h0 : N x.view s.cache = 0 := N_zero.2 fun c hc h => hv.1 (List.mem_map.2 ⟨c, hc, h⟩)
  have hone : ∀ v, N v s.cache ≤ 1 := by
    intro v
    have := List.nodup_iff_count_le_one.1 hv.2 v
    rw [List.count_eq_countP, List.countP_map] at this
    refine le_trans (le_of_eq ?_) this
    rfl
  cases hp : E.passThrough
  · obtain ⟨d, hd1⟩ := dispatch_ok (now := now) hE.some_ hx s.goals false s hc
    have hfrom0 : From x s.cache s.cache := fun c h => .inr ⟨c, h, rfl, id⟩
    obtain ⟨f1, o1⟩ := dispatch_from hd1 hfrom0
    have hc' : ∀ c ∈ d.st.cache, c.input.sync ≠ .onceAxiom := by
      intro c hm
      rcases f1 c hm with h | ⟨c0, h0, h1, -⟩
      · rw [h]; exact hx
      · rw [← h1]; exact hc c0 h0
    obtain ⟨d', hd2⟩ := dispatch_ok (now := now) hE.some_ hx s.preds d.injected d.st hc'
    obtain ⟨-, o2⟩ := dispatch_from hd2 f1
    have hred : reduce E now s (.fact x) =
        some ({ d'.st with goals := d.tpxs, preds := d'.tpxs }, d.effs ++ d'.effs) := by
      simp only [reduce]
      rw [if_neg (by rw [hp]; simp), hd1, Option.bind_some, hd2]
      rfl
    refine ⟨_, hred, ?_, ?_, ?_, ?_⟩
    all_goals dsimp only
    · intro g hg
      have hb := reduce_this hE.distinct hred h0 g.id
      obtain ⟨s1, s2⟩ := dispatch_sends hE.distinct hd1
      obtain ⟨t1, t2⟩ := dispatch_sends hE.distinct hd2
      constructor
      · intro hr
        have h1 : 1 ≤ sent (d.effs ++ d'.effs) x.view g.id := by
          rw [sent_append, sent_eq, sent_eq]
          rcases hr with hr | ⟨t, ht, hi⟩
          · rw [hp] at hr; cases hr
          · by_cases hj : d.injected = true
            · have := s2 rfl hj g hg
              omega
            · have hj' : d.injected = false := by simpa using hj
              have : d'.injected = true := by
                rw [t1]
                rcases List.mem_append.1 ht with ht | ht
                · exact .inl (s1.2 (.inr ⟨t, ht, hi⟩))
                · exact .inr ⟨t, ht, hi⟩
              have := t2 hj' this g hg
              omega
        refine ⟨h1, by omega, fun hf => ?_⟩
        rw [hp] at hb
        have := hb.2 hf
        omega
      · intro hr
        rw [sent_eq]
        refine List.countP_eq_zero.2 fun o ho hoo => hr ?_
        have hoo : o.src = x.view ∧ o.group = g.id := by simpa using hoo
        rw [outs_append] at ho
        have main : ∀ ts, (∃ g ∈ E.groups, (o = out E now x g ∧ ∃ t ∈ ts, Interested E t x) ∨
            ∃ c0 ∈ s.cache, c0.injected = false ∧ o = out E now c0.input g ∧ By E ts x c0.input) →
            ∃ t ∈ ts, Interested E t x := by
          rintro ts ⟨g, -, ⟨-, h⟩ | ⟨c0, h0, -, rfl, -⟩⟩
          · exact h
          · rw [(out_src ..).1] at hoo
            exact absurd (List.mem_map.2 ⟨c0, h0, hoo.1⟩) hv.1
        right
        rcases List.mem_append.1 ho with ho | ho
        · obtain ⟨t, ht, hi⟩ := main _ (o1 o ho)
          exact ⟨t, List.mem_append_left _ ht, hi⟩
        · obtain ⟨t, ht, hi⟩ := main _ (o2 o ho)
          exact ⟨t, List.mem_append_right _ ht, hi⟩
    · intro o ho hsrc
      rw [outs_append] at ho
      have main : ∀ ts, (∃ g ∈ E.groups, (o = out E now x g ∧ ∃ t ∈ ts, Interested E t x) ∨
          ∃ c0 ∈ s.cache, c0.injected = false ∧ o = out E now c0.input g ∧ By E ts x c0.input) →
          Passed E now (E.groups.headD ⟨0, 0⟩) x o := by
        rintro ts ⟨g, hg, ⟨rfl, -⟩ | ⟨c0, h0, -, rfl, -⟩⟩
        · exact out_passed hE hg
        · rw [(out_src ..).1] at hsrc
          exact absurd (List.mem_map.2 ⟨c0, h0, hsrc⟩) hv.1
      rcases List.mem_append.1 ho with ho | ho
      · exact main _ (o1 o ho)
      · exact main _ (o2 o ho)
    · intro o ho hsrc
      rw [outs_append] at ho
      have main : ∀ ts, (∀ t ∈ ts, t ∈ s.goals ++ s.preds) →
          (∃ g ∈ E.groups, (o = out E now x g ∧ ∃ t ∈ ts, Interested E t x) ∨
          ∃ c0 ∈ s.cache, c0.injected = false ∧ o = out E now c0.input g ∧ By E ts x c0.input) →
          ∃ c ∈ s.cache, o.src = c.input.view ∧ c.injected = false ∧ Recalls E s x c.input ∧
            Passed E now (E.groups.headD ⟨0, 0⟩) c.input o := by
        rintro ts hts ⟨g, hg, ⟨rfl, -⟩ | ⟨c0, h0, hi, rfl, t, ht, hn, hsv⟩⟩
        · exact absurd (out_src ..).1 hsrc
        · exact ⟨c0, h0, (out_src ..).1, hi,
            ⟨hp, t, hts t ht, hn.open_, hn.apart, hn.new, hn.fits, hsv⟩, out_passed hE hg⟩
      rcases List.mem_append.1 ho with ho | ho
      · exact main _ (fun t => List.mem_append_left _) (o1 o ho)
      · exact main _ (fun t => List.mem_append_right _) (o2 o ho)
    · intro c hm hi hy hr g hg
      have hne : x.view ≠ c.input.view := fun h => hv.1 (List.mem_map.2 ⟨c, hm, h.symm⟩)
      have hu := (reduce_other (v := c.input.view) hE.distinct hred (by rintro _ ⟨⟩; exact hne)
        (by rintro _ _ ⟨⟩) g.id).1
      have h1 := U_le_N c.input.view s.cache
      have h2 := hone c.input.view
      have h3 : 1 ≤ sent (d.effs ++ d'.effs) c.input.view g.id := by
        rw [sent_append, sent_eq, sent_eq]
        obtain ⟨-, t, ht, k1, k2, k3, k4, k5⟩ := hr
        rcases dispatch_kept hy hd1 ⟨c, hm, rfl, hi⟩ with h | ⟨h, hn1⟩
        · have := h g hg
          omega
        · rcases dispatch_kept hy hd2 h with h | ⟨-, hn2⟩
          · have := h g hg
            omega
          · exfalso
            rcases List.mem_append.1 ht with ht | ht
            · exact hn1 ⟨t, ht, ⟨k1, k2, k3, k4⟩, k5⟩
            · exact hn2 ⟨t, ht, ⟨k1, k2, k3, k4⟩, k5⟩
      omega
  · have hsome := (injectInput_some E now x).2 ⟨hE.some_, hx⟩
    have hred : ∃ s', reduce E now s (.fact x) = some (s', (injectInput E now x).1) := by
      simp only [reduce]
      rw [if_pos hp]
      split
      · cases h : (injectInput E now x).2 with
        | none => rw [h] at hsome; cases hsome
        | some o => exact ⟨_, rfl⟩
      · exact ⟨_, rfl⟩
    obtain ⟨s', hred⟩ := hred
    have houts : outs (injectInput E now x).1 = E.groups.map (out E now x) := by
      rw [outs_injectInput, if_neg hx]
    refine ⟨_, hred, ?_, ?_, ?_, ?_⟩
    all_goals dsimp only
    · intro g hg
      have h1 : sent (injectInput E now x).1 x.view g.id = 1 := by
        rw [sent_eq, houts, cnt_map_out E now x x.view _ hE.distinct g.id,
          if_pos ⟨rfl, List.mem_map.2 ⟨g, hg, rfl⟩⟩]
      exact ⟨fun _ => ⟨by omega, by omega, fun _ => h1⟩, fun h => absurd (.inl hp) h⟩
    · intro o ho _
      rw [houts] at ho
      obtain ⟨g, hg, rfl⟩ := List.mem_map.1 ho
      exact out_passed hE hg
    · intro o ho hsrc
      rw [houts] at ho
      obtain ⟨g, hg, rfl⟩ := List.mem_map.1 ho
      exact absurd (out_src ..).1 hsrc
    · intro c _ _ _ hr
      rw [hr.1] at hp; cases hp

/-- A program with two groups, and targets 1 (which leaves something open), 2 (which has a value in common with fact 20)
and 3 (which leaves something open, and is matched by fact 20). -/
def env109 (pass : Bool) : Env :=
  { passThrough := pass, ctpx := true, gtpx := true, ptpx := true, trace := false, groups := [⟨7, 1⟩, ⟨8, 2⟩], ref := 0, base := 100
    tol := 5, thz := 1000, arith := F32.exact
    shares := fun t i => decide (t = 2 ∧ i = 20)
    sharesVia := fun t j i => decide (t = 3 ∧ j = 20 ∧ (i = 20 ∨ i = 30))
    fits := fun i t => decide (t = 3 ∧ i = 20), full := fun t => decide (t = 2) }

theorem env109_ok (pass : Bool) : (env109 pass).Ok 250 := by
  refine ⟨by simp [env109], by simp [env109], ?_, by simp [env109], by simp [env109], by simp [env109]⟩
  intro g hg
  simp [env109] at hg
  rcases hg with rfl | rfl <;> simp

/-- An observation. -/
def in109 (view fact : Nat) (sync : Sync) : In :=
  { view := view, fact := fact, payload := 5, positive := true, cfd := 1/2, after := 0, before := 300, sync := sync, ijt := 200
    res := .fin 3, host := 1, upr := 1 }

/-- The extractor of a goal. -/
def tpx109 (t : Nat) : Tpx := { target := t, kind := .goal }

/-- C109 does not hold. An input that is kept back for one goal and then matches another is sent twice. A repeated input
observed with certainty 1/2 is passed on with certainty one. One that is to hold is passed on as holding later, from
twice the time tolerance after now. And one to be taken once as an axiom reaches no group; the view that is then
recorded was not set. -/
theorem C109_focus_violated :
    ¬ C109_full ∧
    (∃ r, reduce (env109 false) 250 { goals := [tpx109 1, tpx109 3] } (.fact (in109 0 20 .once)) = some r ∧
      sent r.2 0 7 = 2 ∧ sent r.2 0 8 = 2) ∧
    (∃ r, reduce (env109 true) 250 {} (.fact (in109 0 20 .periodic)) = some r ∧
      (outs r.2).map (·.shown) = [.copy 5 true 1 200 300, .copy 5 true 1 200 300]) ∧
    (∃ r, reduce (env109 true) 250 {} (.fact (in109 0 20 .hold)) = some r ∧
      (outs r.2).map (·.shown) = [.copy 5 true 1 260 350, .copy 5 true 1 260 350]) ∧
    reduce (env109 true) 250 {} (.fact (in109 0 20 .onceAxiom)) = none := by
  refine ⟨fun h => ?_, ⟨_, rfl, by decide +kernel⟩, ⟨_, rfl, by decide +kernel⟩, ⟨_, rfl, by decide +kernel⟩, rfl⟩
  obtain ⟨r, hr, -⟩ := h (env109 true) 250 {} (in109 0 20 .onceAxiom) (env109_ok _) (by simp)
  cases hr

/-- Three targets; fact 30 was kept back. Fact 20 matches target 3: it is sent, and recalls fact 30. Fact 40 is of no
interest. -/
theorem C109_nonvacuous :
    let s : St := { goals := [tpx109 2], preds := [tpx109 3], cache := [⟨in109 1 30 .once, false⟩] }
    (env109 false).Ok 250 ∧ Relevant (env109 false) s (in109 0 20 .once) ∧
    Recalls (env109 false) s (in109 0 20 .once) (in109 1 30 .once) ∧ ¬ Relevant (env109 false) s (in109 0 40 .once) ∧
    ∃ r, reduce (env109 false) 250 s (.fact (in109 0 20 .once)) = some r ∧
      (outs r.2).map (fun o => (o.src, o.group)) = [(0, 7), (0, 8), (1, 7), (1, 8)] := by
  intro s
  refine ⟨env109_ok _, .inr ⟨tpx109 2, by simp [s], .inl (by decide)⟩, ⟨rfl, tpx109 3, by simp [s], by decide, by decide, by decide, by decide, by decide⟩,
    ?_, _, rfl, by decide +kernel⟩
  rintro (h | ⟨t, ht, h⟩)
  · cases h
  · simp only [s, List.mem_append, List.mem_singleton] at ht
    rcases ht with rfl | rfl
    · rcases h with h | ⟨h, -⟩
      · revert h; decide
      · revert h; decide
    · rcases h with h | ⟨-, ⟨m, hm, -⟩ | h⟩
      · revert h; decide
      · cases hm
      · revert h; decide

/-- Which watches are set up when an input is passed on: if changes are to be learned from, one, on what is sent to the
first group, for a positive input that is repeated or for one that is to hold; it lasts for two periods of the group, or one. -/
theorem C112_setup (E : Env) (now : Int) (x : In) (hE : E.Ok now) :
    (E.ctpx = true ∧ (x.sync = .periodic ∧ x.positive = true ∨ x.sync = .hold) →
      ∃ g o, E.groups.head? = some g ∧ o ∈ outs (injectInput E now x).1 ∧ o.group = g.id ∧ Passed E now g x o ∧
        watches (injectInput E now x).1 =
          [.watch (decide (x.sync = .hold)) o x.fact ((if x.sync = .hold then 1 else 2) * (g.upr * E.base))]) ∧
    (¬ (E.ctpx = true ∧ (x.sync = .periodic ∧ x.positive = true ∨ x.sync = .hold)) →
      watches (injectInput E now x).1 = []) := by
  have hw : ∀ os : List Out, watches (os.map .inj) = [] := by
    intro os
    unfold watches
    rw [List.filter_eq_nil_iff]
    intro e he
    obtain ⟨o, -, rfl⟩ := List.mem_map.1 he
    simp
  have ha : ∀ a b, watches (a ++ b) = watches a ++ watches b := by intro a b; simp [watches]
  cases hg : E.groups with
  | nil => exact absurd hg hE.some_
  | cons g gs =>
    have hh : E.groups.headD ⟨0, 0⟩ = g := by rw [hg]; rfl
    have hmem : g ∈ E.groups := by rw [hg]; exact List.mem_cons_self
    have hin : x.sync ≠ .onceAxiom → out E now x g ∈ outs (injectInput E now x).1 := by
      intro hx
      rw [outs_injectInput, if_neg hx]
      exact List.mem_map.2 ⟨g, hmem, rfl⟩
    have hpass : Passed E now g x (out E now x g) := by
      have h := out_passed hE (x := x) hmem
      rw [hh] at h
      exact h
    have hws : watches (injectInput E now x).1 =
        if E.ctpx = true ∧ (x.sync = .periodic ∧ x.positive = true ∨ x.sync = .hold) then
          [.watch (decide (x.sync = .hold)) (out E now x g) x.fact ((if x.sync = .hold then 1 else 2) * (g.upr * E.base))]
        else [] := by
      unfold injectInput
      rw [hg]
      cases hs : x.sync
      · dsimp only; rw [hw]; simp
      · have ho : out E now x g = viewFor E x g .periodic (copyOf x (Upr.prevUprTime E.ref E.base g.upr now)
            (Upr.nextUprTime E.ref E.base g.upr now)) := by simp only [out, hs, hh]
        rw [ho]
        dsimp only
        rw [← List.singleton_append, List.append_assoc, ha, ha, hw, List.append_nil]
        cases E.ctpx <;> cases x.positive <;> simp [watches]
      · have ho : out E now x g = viewFor E x g .once (copyOf x (now + 2 * E.tol) (now + g.upr * E.base)) := by
          simp only [out, hs, hh]
        rw [ho]
        dsimp only
        rw [← List.singleton_append, List.append_assoc, ha, ha, hw, List.append_nil]
        cases E.ctpx <;> simp [watches]
      · dsimp only; rw [hw]; simp
      · simp [watches]
    rw [hws]
    constructor
    · intro h
      refine ⟨g, out E now x g, rfl, hin ?_, (out_src ..).2, hpass, if_pos h⟩
      rcases h.2 with ⟨h, -⟩ | h <;> (rw [h]; decide)
    · intro h
      exact if_neg h

/-! ## C110 -/

/-- C110, in part: an input is sent to each group at most twice, and at most once if everything is passed on, or no target
leaves anything open. -/
theorem C110_once_partial (E : Env) (es : List (Int × Ev)) (r : St × List (List Eff)) (hd : (E.groups.map Grp.id).Nodup)
    (hv : (views es).Nodup) (hp : NoPerf es) (h : run E {} es = some r) (v g : Nat) :
    sent r.2.flatten v g ≤ 2 ∧
      ((E.passThrough = true ∨ ∀ t, E.full t = true) → sent r.2.flatten v g ≤ 1) ∧
      (v ∉ views es → sent r.2.flatten v g = 0) := by
  have h0 : N v ({} : St).cache = 0 := rfl
  refine ⟨run_one hd v g 2 ?_ h hp hv h0, fun hf => run_one hd v g 1 ?_ h hp hv h0, fun hn => ?_⟩
  · rintro now s s' x f rfl hN hr
    exact (reduce_this hd hr hN g).1
  · rintro now s s' x f rfl hN hr
    exact (reduce_this hd hr hN g).2 (hf.imp id fun h t _ => h _)
  · have := run_other hd v g h hp hn
    have h1 : U v ({} : St).cache = 0 := rfl
    omega

/-- C110 does not hold: two goals, and an input that is kept back for the first and matches the second. -/
theorem C110_once_violated :
    ¬ C110_full ∧
    ∃ r, run (env109 false) {} [(0, .reduction true 1 false), (1, .reduction true 3 false),
      (250, .fact (in109 0 20 .once))] = some r ∧ sent r.2.flatten 0 7 = 2 := by
  have hw : ∃ r, run (env109 false) {} [(0, .reduction true 1 false), (1, .reduction true 3 false),
      (250, .fact (in109 0 20 .once))] = some r ∧ sent r.2.flatten 0 7 = 2 := ⟨_, rfl, by decide +kernel⟩
  refine ⟨fun h => ?_, hw⟩
  obtain ⟨r, hr, h2⟩ := hw
  have := h _ _ r (env109_ok _).distinct (by simp [views]) (by
    intro e he x o hc
    simp only [List.mem_cons, List.not_mem_nil, or_false] at he
    rcases he with rfl | rfl | rfl <;> cases hc) hr 0 7
  omega

/-- Fact 30 is kept back and sent when fact 20 comes: once, like that. -/
theorem C110_nonvacuous :
    ∃ r, run (env109 false) {} [(0, .reduction true 3 false), (210, .fact (in109 1 30 .once)), (250, .fact (in109 0 20 .once)),
      (260, .fact (in109 2 30 .once))] = some r ∧ sent (r.2.take 2).flatten 1 7 = 0 ∧ sent r.2.flatten 1 7 = 1 ∧ sent r.2.flatten 0 8 = 1 ∧
      sent r.2.flatten 2 8 = 1 :=
  ⟨_, rfl, by decide +kernel⟩

end Verif.Focus
