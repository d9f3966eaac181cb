import Verif.Focus.Lemmas
import Mathlib.Algebra.Order.Group.Nat
/-!
# How often an input is sent
-/
namespace Verif.Focus
open Verif.Observe (Sync)

/-- The cells with view `v`. -/
def N (v : Nat) (cs : List Cached) : Nat := cs.countP fun c => decide (c.input.view = v)

/-- Those not sent yet. -/
def U (v : Nat) (cs : List Cached) : Nat := cs.countP fun c => decide (c.input.view = v) && !c.injected

theorem U_le_N (v : Nat) (cs : List Cached) : U v cs ≤ N v cs := by
  apply List.countP_mono_left
  intro c _ h
  rw [Bool.and_eq_true] at h
  exact h.1

theorem U_sub {v : Nat} {as bs : List Cached} (h : List.Sublist as bs) : U v as ≤ U v bs := h.countP_le
theorem N_sub {v : Nat} {as bs : List Cached} (h : List.Sublist as bs) : N v as ≤ N v bs := h.countP_le

theorem N_zero {v : Nat} {cs : List Cached} : N v cs = 0 ↔ ∀ c ∈ cs, c.input.view ≠ v := by
  unfold N
  rw [List.countP_eq_zero]
  simp

theorem N_map_upd (E : Env) (t via v : Nat) (cs : List Cached) : N v (cs.map (upd E t via)) = N v cs := by
  unfold N
  rw [List.countP_map]
  congr 1
  funext c
  simp [upd_input]

theorem selOuts_cons (E : Env) (now : Int) (t via : Nat) (c : Cached) (cs : List Cached) :
    selOuts E now t via (c :: cs) =
      (if sel E t via c then E.groups.map (out E now c.input) else []) ++ selOuts E now t via cs := by
  unfold selOuts
  by_cases h : sel E t via c = true
  · rw [List.filter_cons_of_pos h, if_pos h, List.flatMap_cons]
  · rw [List.filter_cons_of_neg h, if_neg h, List.nil_append]

/-- What is sent from the cache is marked there. -/
theorem recall_count (E : Env) (now : Int) (t via v g : Nat) (hd : (E.groups.map Grp.id).Nodup) (cs : List Cached) :
    cnt (selOuts E now t via cs) v g + U v (cs.map (upd E t via)) ≤ U v cs := by
  induction cs with
  | nil => simp [selOuts, cnt, U]
  | cons c cs ih =>
    rw [selOuts_cons, cnt_append, List.map_cons]
    have hU : ∀ (c : Cached) cs, U v (c :: cs) = U v cs + if c.input.view = v ∧ c.injected = false then 1 else 0 := by
      intro c cs
      unfold U
      rw [List.countP_cons]
      simp
    rw [hU, hU]
    by_cases hs : sel E t via c = true
    · have hi : c.injected = false := by
        unfold sel at hs
        rw [Bool.and_eq_true] at hs
        simpa using hs.1
      have h1 : (upd E t via c).injected = true := by unfold upd; rw [if_pos hs]
      rw [if_pos hs, cnt_map_out E now c.input v _ hd g, upd_input, h1, hi]
      by_cases hv : c.input.view = v
      · simp only [hv, true_and, and_true, if_true, Bool.true_eq_false, and_false, if_false]
        split <;> omega
      · simp only [hv, false_and, if_false]
        omega
    · have h1 : upd E t via c = c := by unfold upd; rw [if_neg hs]
      rw [if_neg hs, cnt_nil, h1]
      omega

theorem sweep_lost {E : Env} {now : Int} {cs : List Cached} {c : Cached} (h : c ∈ cs) :
    c ∈ sweep E now cs ∨ (c ∈ cs.tail ∧ expired E now c = true) := by
  cases cs with
  | nil => cases h
  | cons a as =>
    unfold sweep
    rcases List.mem_cons.1 h with rfl | h
    · exact .inl List.mem_cons_self
    · by_cases he : expired E now c = true
      · exact .inr ⟨h, he⟩
      · exact .inl (List.mem_cons_of_mem _ (List.mem_filter.2 ⟨h, by simpa using he⟩))

theorem findIn_lost {E : Env} {now : Int} {v : Nat} : ∀ {cs : List Cached} {c : Cached}, c ∈ cs →
    c ∈ (findIn E now v cs).1 ∨ expired E now c = true := by
  intro cs
  induction cs with
  | nil => intro c h; cases h
  | cons a as ih =>
    intro c h
    unfold findIn
    by_cases he : expired E now a = true
    · rw [if_pos he]
      rcases List.mem_cons.1 h with rfl | h
      · exact .inr he
      · exact ih h
    · rw [if_neg he]
      split
      · exact .inl h
      · rcases List.mem_cons.1 h with rfl | h
        · exact .inl List.mem_cons_self
        · exact (ih h).imp (List.mem_cons_of_mem _) id

theorem find_lost {E : Env} {now : Int} {v : Nat} {cs : List Cached} {c : Cached} (h : c ∈ cs) :
    c ∈ (find E now v cs).1 ∨ (c ∈ cs.tail ∧ expired E now c = true) := by
  cases cs with
  | nil => cases h
  | cons a as =>
    simp only [find]
    split
    · exact .inl h
    · rcases List.mem_cons.1 h with rfl | h
      · exact .inl List.mem_cons_self
      · rcases findIn_lost (E := E) (now := now) (v := v) h with h' | h'
        · exact .inl (List.mem_cons_of_mem _ h')
        · exact .inr ⟨h, h'⟩

theorem findIn_found {E : Env} {now : Int} {v : Nat} : ∀ {cs : List Cached},
    ((findIn E now v cs).2 = true → ∃ c ∈ (findIn E now v cs).1, c.input.view = v) ∧
    ((findIn E now v cs).2 = false → ∀ c ∈ (findIn E now v cs).1, c.input.view ≠ v) := by
  intro cs
  induction cs with
  | nil => exact ⟨fun h => (by cases h), fun _ c h => (by cases h)⟩
  | cons a as ih =>
    unfold findIn
    by_cases he : expired E now a = true
    · rw [if_pos he]; exact ih
    · rw [if_neg he]
      by_cases hv : a.input.view = v
      · rw [if_pos hv]
        exact ⟨fun _ => ⟨a, List.mem_cons_self, hv⟩, fun h => by cases h⟩
      · rw [if_neg hv]
        refine ⟨fun h => ?_, fun h c hc => ?_⟩
        · obtain ⟨c, hc, h'⟩ := ih.1 h
          exact ⟨c, List.mem_cons_of_mem _ hc, h'⟩
        · rcases List.mem_cons.1 hc with rfl | hc
          · exact hv
          · exact ih.2 h c hc

theorem find_found {E : Env} {now : Int} {v : Nat} {cs : List Cached} :
    ((find E now v cs).2 = true → ∃ c ∈ (find E now v cs).1, c.input.view = v) ∧
    ((find E now v cs).2 = false → ∀ c ∈ (find E now v cs).1, c.input.view ≠ v) := by
  cases cs with
  | nil => exact ⟨fun h => (by cases h), fun _ c h => (by cases h)⟩
  | cons a as =>
    simp only [find]
    by_cases hv : a.input.view = v
    · rw [if_pos hv]
      exact ⟨fun _ => ⟨a, List.mem_cons_self, hv⟩, fun h => by cases h⟩
    · rw [if_neg hv]
      refine ⟨fun h => ?_, fun h c hc => ?_⟩
      · obtain ⟨c, hc, h'⟩ := findIn_found.1 h
        exact ⟨c, List.mem_cons_of_mem _ hc, h'⟩
      · rcases List.mem_cons.1 hc with rfl | hc
        · exact hv
        · exact findIn_found.2 h c hc

/-! ## Inputs other than the one being reduced -/

theorem step_other {E : Env} {now : Int} {x : In} {t : Tpx} {cs cs' : List Cached} {os : List Out} {v : Nat}
    (hd : (E.groups.map Grp.id).Nodup) (h : Step E now x t cs os cs') (hv : x.view ≠ v) (g : Nat) :
    cnt os v g + U v cs' ≤ U v cs ∧ N v cs' ≤ N v cs := by
  cases h with
  | same => simp [cnt_nil]
  | recall hn =>
    refine ⟨(recall_count E now _ _ v g hd _).trans (U_sub sweep_sub), ?_⟩
    rw [N_map_upd]
    exact N_sub sweep_sub
  | keep hi hf =>
    rw [cnt_nil, Nat.zero_add]
    split
    · exact ⟨U_sub find_sub, N_sub find_sub⟩
    · have h1 : ∀ l : List Cached, U v (l ++ [⟨x, false⟩]) = U v l ∧ N v (l ++ [⟨x, false⟩]) = N v l := by
        intro l
        simp [U, N, hv]
      rw [(h1 _).1, (h1 _).2]
      exact ⟨U_sub find_sub, N_sub find_sub⟩

theorem dispatch_other {E : Env} {now : Int} {x : In} {v : Nat} (hd : (E.groups.map Grp.id).Nodup) (hv : x.view ≠ v)
    (g : Nat) : ∀ {ts : List Tpx} {inj : Bool} {s : St} {d : Dispatched}, dispatch E now x ts inj s = some d →
      cnt (outs d.effs) v g + U v d.st.cache ≤ U v s.cache ∧ N v d.st.cache ≤ N v s.cache := by
  intro ts
  induction ts with
  | nil => intro inj s d h; cases h; simp [outs, cnt_nil]
  | cons t ts ih =>
    intro inj s d h
    obtain ⟨os, s1, inj1, d', hs, hd', -, e2, ho⟩ := dispatch_cons h
    obtain ⟨a1, a2⟩ := step_other hd hs hv g
    obtain ⟨b1, b2⟩ := ih hd'
    have ho' : cnt (outs d.effs) v g = cnt os v g + cnt (outs d'.effs) v g := by
      rcases ho with ⟨-, -, -, ho⟩ | ⟨-, -, ho⟩
      · rw [ho, cnt_append, cnt_append, cnt_map_out E now x v _ hd g, if_neg (fun h => hv h.1)]
        omega
      · rw [ho, cnt_append]
    rw [e2, ho']
    exact ⟨by omega, by omega⟩

/-! ## The input being reduced -/

/-- How often `v` may still be sent from the cache. -/
def cap (v : Nat) (cs : List Cached) : Nat := if N v cs = 0 then 1 else U v cs

/-- What was sent from the cache stays there. -/
def Stays (E : Env) (now : Int) (v : Nat) (cs : List Cached) : Prop :=
  ∀ c ∈ cs.tail, c.injected = true → c.input.view = v → expired E now c = false

theorem U_pos {v : Nat} {cs : List Cached} {c : Cached} (h : c ∈ cs) (hv : c.input.view = v) (hi : c.injected = false) :
    0 < U v cs := by
  unfold U
  exact List.countP_pos_iff.2 ⟨c, h, by simp [hv, hi]⟩

theorem N_pos {v : Nat} {cs : List Cached} {c : Cached} (h : c ∈ cs) (hv : c.input.view = v) : 0 < N v cs :=
  List.countP_pos_iff.2 ⟨c, h, by simp [hv]⟩

theorem cap_lost {E : Env} {now : Int} {v : Nat} {cs as : List Cached} (hs : Stays E now v cs)
    (hl : ∀ c ∈ cs, c ∈ as ∨ (c ∈ cs.tail ∧ expired E now c = true)) (h0 : N v as = 0) : 1 ≤ cap v cs := by
  unfold cap
  by_cases hn : N v cs = 0
  · rw [if_pos hn]
  · rw [if_neg hn]
    obtain ⟨c, hc, hv⟩ := List.countP_pos_iff.1 (Nat.pos_of_ne_zero hn)
    have hv : c.input.view = v := by simpa using hv
    rcases hl c hc with h | ⟨h1, h2⟩
    · exact absurd hv (N_zero.1 h0 c h)
    · refine U_pos hc hv ?_
      by_contra hi
      have := hs c h1 (by simpa using hi) hv
      rw [h2] at this
      cases this

theorem step_this {E : Env} {now : Int} {x : In} {t : Tpx} {cs cs' : List Cached} {os : List Out}
    (hd : (E.groups.map Grp.id).Nodup) (h : Step E now x t cs os cs') (hn : N x.view cs ≤ 1)
    (hs : Stays E now x.view cs) (g : Nat) :
    cnt os x.view g + cap x.view cs' ≤ cap x.view cs ∧ N x.view cs' ≤ 1 ∧ Stays E now x.view cs' := by
  cases h with
  | same => exact ⟨by simp [cnt_nil], hn, hs⟩
  | recall hm =>
    have h1 := recall_count E now t.target x.fact x.view g hd (sweep E now cs)
    have h2 := U_sub (v := x.view) (sweep_sub (E := E) (now := now) (cs := cs))
    have h3 := N_sub (v := x.view) (sweep_sub (E := E) (now := now) (cs := cs))
    refine ⟨?_, by rw [N_map_upd]; omega, ?_⟩
    · by_cases h0 : N x.view (sweep E now cs) = 0
      · have := cap_lost hs (fun c hc => sweep_lost (E := E) (now := now) hc) h0
        have h4 := U_le_N x.view (sweep E now cs)
        have h5 : cap x.view ((sweep E now cs).map (upd E t.target x.fact)) = 1 := by
          unfold cap; rw [N_map_upd, if_pos h0]
        omega
      · have h5 : cap x.view ((sweep E now cs).map (upd E t.target x.fact)) =
            U x.view ((sweep E now cs).map (upd E t.target x.fact)) := by
          unfold cap; rw [N_map_upd, if_neg h0]
        have h6 : cap x.view cs = U x.view cs := by
          unfold cap; rw [if_neg (by omega)]
        omega
    · intro c hc _ _
      cases cs with
      | nil => cases hc
      | cons a as =>
        unfold sweep at hc
        rw [List.map_cons, List.tail_cons] at hc
        obtain ⟨b, hb, rfl⟩ := List.mem_map.1 hc
        have := (List.mem_filter.1 hb).2
        unfold expired at this ⊢
        rw [upd_input]
        simpa using this
  | keep hi hf =>
    rw [cnt_nil, Nat.zero_add]
    have h2 := U_sub (v := x.view) (find_sub (E := E) (now := now) (v := x.view) (cs := cs))
    have h3 := N_sub (v := x.view) (find_sub (E := E) (now := now) (v := x.view) (cs := cs))
    have ht : List.Sublist (find E now x.view cs).1.tail cs.tail := find_sub.tail
    cases hfound : (find E now x.view cs).2 with
    | true =>
      rw [if_pos rfl]
      obtain ⟨c, hc, hv⟩ := find_found.1 hfound
      have := N_pos hc hv
      refine ⟨?_, by omega, fun c hc => hs c (ht.subset hc)⟩
      unfold cap
      rw [if_neg (by omega), if_neg (by omega)]
      exact h2
    | false =>
      rw [if_neg (by simp)]
      have h0 : N x.view (find E now x.view cs).1 = 0 := N_zero.2 (find_found.2 hfound)
      have h4 : U x.view (find E now x.view cs).1 = 0 := Nat.le_zero.1 (h0 ▸ U_le_N _ _)
      have h1 : ∀ l : List Cached, U x.view (l ++ [⟨x, false⟩]) = U x.view l + 1 ∧
          N x.view (l ++ [⟨x, false⟩]) = N x.view l + 1 := by
        intro l
        simp [U, N]
      refine ⟨?_, by rw [(h1 _).2]; omega, ?_⟩
      · have := cap_lost hs (fun c hc => find_lost (E := E) (now := now) (v := x.view) hc) h0
        unfold cap at this ⊢
        rw [if_neg (by rw [(h1 _).2]; omega), (h1 _).1, h4]
        exact this
      · intro c hc hci
        cases hl : (find E now x.view cs).1 with
        | nil =>
          rw [hl] at hc
          cases hc
        | cons a as =>
          rw [hl] at hc ht
          rw [List.cons_append, List.tail_cons] at hc
          rcases List.mem_append.1 hc with h | h
          · exact hs c (ht.subset h) hci
          · rw [List.mem_singleton.1 h] at hci
            cases hci

theorem dispatch_this {E : Env} {now : Int} {x : In} (hd : (E.groups.map Grp.id).Nodup) (g : Nat) :
    ∀ {ts : List Tpx} {inj : Bool} {s : St} {d : Dispatched}, dispatch E now x ts inj s = some d →
      N x.view s.cache ≤ 1 → Stays E now x.view s.cache →
      cnt (outs d.effs) x.view g + cap x.view d.st.cache + (if d.injected then 0 else 1) ≤
        cap x.view s.cache + (if inj then 0 else 1) ∧
      N x.view d.st.cache ≤ 1 ∧ Stays E now x.view d.st.cache := by
  intro ts
  induction ts with
  | nil => intro inj s d h hn hs; cases h; exact ⟨by simp [outs, cnt_nil], hn, hs⟩
  | cons t ts ih =>
    intro inj s d h hn hs
    obtain ⟨os, s1, inj1, d', hst, hd', e1, e2, ho⟩ := dispatch_cons h
    obtain ⟨a1, a2, a3⟩ := step_this hd hst hn hs g
    obtain ⟨b1, b2, b3⟩ := ih hd' a2 a3
    rw [e1, e2]
    refine ⟨?_, b2, b3⟩
    rcases ho with ⟨-, h1, h2, ho⟩ | ⟨-, h1, ho⟩
    · subst h1 h2
      rw [ho, cnt_append, cnt_append, cnt_map_out E now x x.view _ hd g]
      simp only [if_true, Bool.false_eq_true, if_false] at b1 ⊢
      have : (if True ∧ g ∈ List.map Grp.id E.groups then 1 else 0) ≤ 1 := by split <;> omega
      omega
    · subst h1
      rw [ho, cnt_append]
      omega

/-- If the targets leave nothing open, nothing is kept back. -/
theorem dispatch_full {E : Env} {now : Int} {x : In} (hd : (E.groups.map Grp.id).Nodup) (g : Nat) :
    ∀ {ts : List Tpx} {inj : Bool} {s : St} {d : Dispatched}, dispatch E now x ts inj s = some d →
      (∀ t ∈ ts, E.full t.target = true) →
      cnt (outs d.effs) x.view g + (if d.injected then 0 else 1) ≤ (if inj then 0 else 1) ∧ d.st.cache = s.cache := by
  intro ts
  induction ts with
  | nil => intro inj s d h _; cases h; exact ⟨by simp [outs, cnt_nil], rfl⟩
  | cons t ts ih =>
    intro inj s d h hf
    obtain ⟨os, s1, inj1, d', hst, hd', e1, e2, ho⟩ := dispatch_cons h
    have hft := hf t List.mem_cons_self
    have hsame : os = [] ∧ s1.cache = s.cache := by
      generalize s.cache = a at hst
      generalize s1.cache = b at hst
      cases hst with
      | same => exact ⟨rfl, rfl⟩
      | recall hm => rw [hm.open_] at hft; cases hft
      | keep _ hf' => rw [hf'] at hft; cases hft
    obtain ⟨b1, b2⟩ := ih hd' fun t ht => hf t (List.mem_cons_of_mem _ ht)
    rw [e1, e2, b2, hsame.2]
    refine ⟨?_, rfl⟩
    rcases ho with ⟨-, h1, h2, ho⟩ | ⟨-, h1, ho⟩
    · subst h1 h2
      rw [ho, cnt_append, cnt_append, cnt_map_out E now x x.view _ hd g, hsame.1, cnt_nil]
      simp only [if_true, Bool.false_eq_true, if_false] at b1 ⊢
      have : (if True ∧ g ∈ List.map Grp.id E.groups then 1 else 0) ≤ 1 := by split <;> omega
      omega
    · subst h1
      rw [ho, cnt_append, hsame.1, cnt_nil]
      omega

/-! ## Histories -/

theorem cnt_injectInput (E : Env) (now : Int) (x : In) (hd : (E.groups.map Grp.id).Nodup) (v g : Nat) :
    cnt (outs (injectInput E now x).1) v g ≤ if x.view = v then 1 else 0 := by
  rw [outs_injectInput]
  split
  · simp [cnt_nil]
  · rw [cnt_map_out E now x v _ hd g]
    by_cases h : x.view = v
    · simp only [h, true_and, if_true]
      split <;> omega
    · simp [h]

theorem reduce_pass {E : Env} {now : Int} {s s' : St} {x : In} {f : List Eff} (hp : E.passThrough = true)
    (h : reduce E now s (.fact x) = some (s', f)) : f = (injectInput E now x).1 ∧ s'.cache = s.cache := by
  simp only [reduce] at h
  rw [if_pos hp] at h
  split at h
  · split at h
    · cases h
    · split at h <;> (cases h; exact ⟨rfl, rfl⟩)
  · cases h; exact ⟨rfl, rfl⟩

theorem reduce_sel {E : Env} {now : Int} {s s' : St} {x : In} {f : List Eff} (hp : E.passThrough = false)
    (h : reduce E now s (.fact x) = some (s', f)) :
    ∃ d d', dispatch E now x s.goals false s = some d ∧ dispatch E now x s.preds d.injected d.st = some d' ∧
      f = d.effs ++ d'.effs ∧ s'.cache = d'.st.cache := by
  simp only [reduce] at h
  rw [if_neg (by rw [hp]; simp)] at h
  obtain ⟨d, hd, h⟩ := Option.bind_eq_some_iff.1 h
  obtain ⟨d', hd', h⟩ := Option.map_eq_some_iff.1 h
  cases h
  exact ⟨d, d', hd, hd', rfl, rfl⟩

theorem outs_ackAll (ts : List Tpx) (o : Nat) : outs (ackAll ts o) = [] := by
  unfold outs ackAll
  rw [List.filterMap_eq_nil_iff]
  intro e he
  obtain ⟨t, -, rfl⟩ := List.mem_map.1 he
  rfl

theorem outs_notify (E : Env) (ts : List Tpx) (t : Nat) (ok : Bool) (o : Nat) : outs (notify E ts t ok o).2 = [] := by
  unfold notify
  split
  · rfl
  · unfold signal
    split
    · rfl
    · split <;> rfl
    · split <;> rfl

/-- Events that are not facts or performance facts send nothing. -/
theorem reduce_still {E : Env} {now : Int} {s s' : St} {e : Ev} {f : List Eff} (h : reduce E now s e = some (s', f))
    (h1 : ∀ x, e ≠ .fact x) (h2 : ∀ x o, e ≠ .perf x o) : outs f = [] ∧ s'.cache = s.cache := by
  cases e with
  | reduction goal t wr => cases goal <;> (cases h; exact ⟨rfl, rfl⟩)
  | outcome goal t ok o =>
    cases goal
    · cases h
      refine ⟨?_, rfl⟩
      rw [outs_append, outs_notify]
      cases ok
      · rfl
      · exact outs_ackAll _ _
    · cases h
      exact ⟨outs_notify .., rfl⟩
  | perf x o => exact absurd rfl (h2 x o)
  | icst x =>
    simp only [reduce] at h
    split at h <;> (cases h; exact ⟨rfl, rfl⟩)
  | fact x => exact absurd rfl (h1 x)

theorem reduce_other {E : Env} {now : Int} {s s' : St} {e : Ev} {f : List Eff} {v : Nat}
    (hd : (E.groups.map Grp.id).Nodup) (h : reduce E now s e = some (s', f)) (h1 : ∀ x, e = .fact x → x.view ≠ v)
    (h2 : ∀ x o, e ≠ .perf x o) (g : Nat) :
    sent f v g + U v s'.cache ≤ U v s.cache ∧ N v s'.cache ≤ N v s.cache := by
  rw [sent_eq]
  by_cases hf : ∀ x, e ≠ .fact x
  · obtain ⟨a, b⟩ := reduce_still h hf h2
    rw [a, b, cnt_nil]
    omega
  · have hf' : ∃ x, e = .fact x := by
      by_contra hc
      exact hf fun x hx => hc ⟨x, hx⟩
    obtain ⟨x, rfl⟩ := hf'
    have hv := h1 x rfl
    cases hp : E.passThrough
    · obtain ⟨d, d', e1, e2, rfl, e4⟩ := reduce_sel hp h
      obtain ⟨a1, a2⟩ := dispatch_other hd hv g e1
      obtain ⟨b1, b2⟩ := dispatch_other hd hv g e2
      rw [outs_append, cnt_append, e4]
      omega
    · obtain ⟨rfl, e2⟩ := reduce_pass hp h
      have := cnt_injectInput E now x hd v g
      rw [if_neg hv] at this
      rw [e2]
      omega

theorem stays_none {E : Env} {now : Int} {v : Nat} {cs : List Cached} (h : N v cs = 0) : Stays E now v cs :=
  fun c hc _ hv => absurd hv (N_zero.1 h c (List.mem_of_mem_tail hc))

theorem reduce_this {E : Env} {now : Int} {s s' : St} {x : In} {f : List Eff} (hd : (E.groups.map Grp.id).Nodup)
    (h : reduce E now s (.fact x) = some (s', f)) (h0 : N x.view s.cache = 0) (g : Nat) :
    sent f x.view g + U x.view s'.cache ≤ 2 ∧
      ((E.passThrough = true ∨ ∀ t ∈ s.goals ++ s.preds, E.full t.target = true) →
        sent f x.view g + U x.view s'.cache ≤ 1) := by
  rw [sent_eq]
  have hU : U x.view s.cache = 0 := Nat.le_zero.1 (h0 ▸ U_le_N _ _)
  cases hp : E.passThrough
  · obtain ⟨d, d', e1, e2, rfl, e4⟩ := reduce_sel hp h
    obtain ⟨a1, a2, a3⟩ := dispatch_this hd g e1 (by omega) (stays_none h0)
    obtain ⟨b1, b2, b3⟩ := dispatch_this hd g e2 a2 a3
    have hc : cap x.view s.cache = 1 := by unfold cap; rw [if_pos h0]
    have hc' : U x.view d'.st.cache ≤ cap x.view d'.st.cache := by
      unfold cap
      split
      · have := U_le_N x.view d'.st.cache
        omega
      · exact le_rfl
    rw [outs_append, cnt_append, e4]
    constructor
    · simp only [Bool.false_eq_true, if_false] at a1
      omega
    · rintro (hc | hf)
      · cases hc
      · obtain ⟨a1, a2⟩ := dispatch_full hd g e1 fun t ht => hf t (List.mem_append_left _ ht)
        obtain ⟨b1, b2⟩ := dispatch_full hd g e2 fun t ht => hf t (List.mem_append_right _ ht)
        rw [b2, a2, hU]
        simp only [Bool.false_eq_true, if_false] at a1
        omega
  · obtain ⟨rfl, e2⟩ := reduce_pass hp h
    have := cnt_injectInput E now x hd x.view g
    rw [if_pos rfl] at this
    rw [e2, hU]
    exact ⟨by omega, fun _ => by omega⟩

theorem sent_append (a b : List Eff) (v g : Nat) : sent (a ++ b) v g = sent a v g + sent b v g := by
  rw [sent_eq, outs_append, cnt_append]; rfl

theorem run_other {E : Env} (hd : (E.groups.map Grp.id).Nodup) (v g : Nat) :
    ∀ {es : List (Int × Ev)} {s : St} {r : St × List (List Eff)}, run E s es = some r → NoPerf es → v ∉ views es →
      sent r.2.flatten v g + U v r.1.cache ≤ U v s.cache := by
  intro es
  induction es with
  | nil => intro s r h _ _; cases h; simp [sent, outs]
  | cons a es ih =>
    intro s r h hp hv
    obtain ⟨n, e⟩ := a
    rw [run] at h
    obtain ⟨p, hp1, h⟩ := Option.bind_eq_some_iff.1 h
    obtain ⟨q, hq, rfl⟩ := Option.map_eq_some_iff.1 h
    have hv1 : v ∉ views es := by
      intro hm; apply hv
      unfold views at hm ⊢
      rw [List.filterMap_cons]
      split
      · exact hm
      · exact List.mem_cons_of_mem _ hm
    have i1 := ih hq (fun e he => hp e (List.mem_cons_of_mem _ he)) hv1
    have i2 := (reduce_other (s' := p.1) (f := p.2) (v := v) hd hp1 (by
      rintro x rfl rfl
      exact hv (by simp [views])) (hp (n, e) List.mem_cons_self) g).1
    simp only [List.flatten_cons, sent_append]
    omega

theorem run_one {E : Env} (hd : (E.groups.map Grp.id).Nodup) (v g b : Nat)
    (hb : ∀ (now : Int) (s s' : St) (x : In) (f : List Eff), x.view = v → N v s.cache = 0 →
      reduce E now s (.fact x) = some (s', f) → sent f v g + U v s'.cache ≤ b) :
    ∀ {es : List (Int × Ev)} {s : St} {r : St × List (List Eff)}, run E s es = some r → NoPerf es → (views es).Nodup →
      N v s.cache = 0 → sent r.2.flatten v g ≤ b := by
  intro es
  induction es with
  | nil => intro s r h _ _ _; cases h; simp [sent, outs]
  | cons a es ih =>
    intro s r h hp hnd h0
    obtain ⟨n, e⟩ := a
    rw [run] at h
    obtain ⟨p, hp1, h⟩ := Option.bind_eq_some_iff.1 h
    obtain ⟨q, hq, rfl⟩ := Option.map_eq_some_iff.1 h
    have hp' : NoPerf es := fun e he => hp e (List.mem_cons_of_mem _ he)
    simp only [List.flatten_cons, sent_append]
    by_cases hx : ∃ x, e = .fact x ∧ x.view = v
    · obtain ⟨x, rfl, hxv⟩ := hx
      have hnd' : x.view ∉ views es ∧ (views es).Nodup := by
        simpa [views] using hnd
      have i1 := hb n s p.1 x p.2 hxv h0 hp1
      have i2 := run_other hd v g hq hp' (hxv ▸ hnd'.1)
      omega
    · have hnd' : (views es).Nodup := by
        unfold views at hnd ⊢
        rw [List.filterMap_cons] at hnd
        split at hnd
        · exact hnd
        · exact (List.nodup_cons.1 hnd).2
      have i2 := reduce_other (s' := p.1) (f := p.2) (v := v) hd hp1 (fun x he hv => hx ⟨x, he, hv⟩)
        (hp (n, e) List.mem_cons_self) g
      have i1 := ih hq hp' hnd' (by omega)
      have := U_le_N v s.cache
      omega

end Verif.Focus
