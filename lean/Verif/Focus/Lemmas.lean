import Verif.Focus.Spec
import Verif.Upr.Props
import Mathlib.Data.List.Nodup
import Mathlib.Data.List.Count
/-!
# What focus sends, step by step
-/
namespace Verif.Focus
open Verif.Observe (Sync)

/-! ## Counting -/

/-- How many of the views show input `v` to group `g`. -/
def cnt (os : List Out) (v g : Nat) : Nat := os.countP fun o => decide (o.src = v ∧ o.group = g)

theorem sent_eq (es : List Eff) (v g : Nat) : sent es v g = cnt (outs es) v g := rfl

theorem outs_append (a b : List Eff) : outs (a ++ b) = outs a ++ outs b := by simp [outs]

theorem cnt_append (a b : List Out) (v g : Nat) : cnt (a ++ b) v g = cnt a v g + cnt b v g := by
  simp [cnt]

theorem cnt_nil (v g : Nat) : cnt [] v g = 0 := rfl

/-- What is sent to group `g` for an input. -/
def out (E : Env) (now : Int) (x : In) (g : Grp) : Out :=
  let g0 := E.groups.headD ⟨0, 0⟩
  match x.sync with
  | .once | .onceAxiom => viewFor E x g .once (.same x.fact)
  | .periodic =>
    viewFor E x g .periodic (copyOf x (Upr.prevUprTime E.ref E.base g0.upr now) (Upr.nextUprTime E.ref E.base g0.upr now))
  | .hold => viewFor E x g .once (copyOf x (now + 2 * E.tol) (now + g0.upr * E.base))
  | .axiom_ =>
    { viewFor E x g .onceAxiom (copyOf x (Upr.prevUprTime E.ref E.base g0.upr now)
        (Upr.nextUprTime E.ref E.base g0.upr now)) with res := some 1 }

theorem out_src (E : Env) (now : Int) (x : In) (g : Grp) : (out E now x g).src = x.view ∧ (out E now x g).group = g.id := by
  unfold out
  cases x.sync <;> exact ⟨rfl, rfl⟩

theorem outs_injs (os : List Out) : outs (os.map .inj) = os := by
  induction os with
  | nil => rfl
  | cons o os ih =>
    have : outs (Eff.inj o :: os.map .inj) = o :: outs (os.map .inj) := rfl
    rw [List.map_cons, this, ih]

theorem outs_injectInput (E : Env) (now : Int) (x : In) :
    outs (injectInput E now x).1 = if x.sync = .onceAxiom then [] else E.groups.map (out E now x) := by
  unfold injectInput
  cases hg : E.groups with
  | nil => cases x.sync <;> rfl
  | cons g0 gs =>
    have hh : E.groups.headD ⟨0, 0⟩ = g0 := by rw [hg]; rfl
    cases hs : x.sync
    · rw [if_neg (by decide)]
      have hf : out E now x = fun g => viewFor E x g .once (.same x.fact) := by
        funext g; simp only [out, hs]
      rw [hf]
      dsimp only
      rw [outs_injs, List.map_cons]
    · rw [if_neg (by decide)]
      have hf : out E now x = fun g => viewFor E x g .periodic (copyOf x (Upr.prevUprTime E.ref E.base g0.upr now)
            (Upr.nextUprTime E.ref E.base g0.upr now)) := by
        funext g; simp only [out, hs, hh]
      rw [hf]
      dsimp only
      rw [← List.singleton_append, List.append_assoc, outs_append, outs_append, outs_injs, List.map_cons]
      split <;> rfl
    · rw [if_neg (by decide)]
      have hf : out E now x = fun g => viewFor E x g .once (copyOf x (now + 2 * E.tol) (now + g0.upr * E.base)) := by
        funext g; simp only [out, hs, hh]
      rw [hf]
      dsimp only
      rw [← List.singleton_append, List.append_assoc, outs_append, outs_append, outs_injs, List.map_cons]
      split <;> rfl
    · rw [if_neg (by decide)]
      have hf : out E now x = fun g => { viewFor E x g .onceAxiom (copyOf x (Upr.prevUprTime E.ref E.base g0.upr now)
            (Upr.nextUprTime E.ref E.base g0.upr now)) with res := some 1 } := by
        funext g; simp only [out, hs, hh]
      rw [hf]
      dsimp only
      rw [outs_injs, List.map_cons]
    · rfl

theorem injectInput_some (E : Env) (now : Int) (x : In) :
    (injectInput E now x).2.isSome = true ↔ E.groups ≠ [] ∧ x.sync ≠ .onceAxiom := by
  unfold injectInput
  cases E.groups with
  | nil => simp
  | cons g0 gs => cases x.sync <;> simp

theorem injectStore_ok {E : Env} {now : Int} (s : St) {x : In} (hg : E.groups ≠ []) (hx : x.sync ≠ .onceAxiom) :
    ∃ s' es, injectStore E now s x = some (s', es) := by
  have h := (injectInput_some E now x).2 ⟨hg, hx⟩
  unfold injectStore
  generalize injectInput E now x = p at h
  obtain ⟨f, o⟩ := p
  cases o with
  | none => cases h
  | some o => exact ⟨_, _, rfl⟩

theorem injectStore_out {E : Env} {now : Int} {s s' : St} {x : In} {es : List Eff}
    (h : injectStore E now s x = some (s', es)) : s'.cache = s.cache ∧ outs es = E.groups.map (out E now x) := by
  unfold injectStore at h
  have h1 := outs_injectInput E now x
  have h2 := injectInput_some E now x
  generalize injectInput E now x = p at h h1 h2
  obtain ⟨f, o⟩ := p
  cases o with
  | none => cases h
  | some o =>
    cases h
    rw [if_neg (h2.1 rfl).2] at h1
    exact ⟨rfl, h1⟩

theorem cnt_map_out (E : Env) (now : Int) (y : In) (v : Nat) (gs : List Grp)
    (hgs : (gs.map Grp.id).Nodup) (k : Nat) :
    cnt (gs.map (out E now y)) v k = if y.view = v ∧ k ∈ gs.map Grp.id then 1 else 0 := by
  induction gs with
  | nil => simp [cnt]
  | cons g gs ih =>
    rw [List.map_cons, List.nodup_cons] at hgs
    have ih' := ih hgs.2
    have hc : cnt ((g :: gs).map (out E now y)) v k =
        cnt (gs.map (out E now y)) v k + if y.view = v ∧ g.id = k then 1 else 0 := by
      unfold cnt
      rw [List.map_cons, List.countP_cons]
      rw [(out_src E now y g).1, (out_src E now y g).2]
      simp
    rw [hc, ih']
    by_cases hv : y.view = v
    · by_cases hk : g.id = k
      · subst hk
        simp [hv, hgs.1]
      · simp only [hv, true_and, hk, if_false, List.map_cons, List.mem_cons, Ne.symm hk, false_or, Nat.add_zero]
    · simp [hv]

/-! ## Steps on the cache -/

/-- Chosen when `t` is matched by `via`. -/
def sel (E : Env) (t via : Nat) (c : Cached) : Bool := !c.injected && E.sharesVia t via c.input.fact

/-- A cell after that. -/
def upd (E : Env) (t via : Nat) (c : Cached) : Cached := if sel E t via c then { c with injected := true } else c

theorem upd_input (E : Env) (t via : Nat) (c : Cached) : (upd E t via c).input = c.input := by
  unfold upd; split <;> rfl

/-- What is sent for the cells chosen. -/
def selOuts (E : Env) (now : Int) (t via : Nat) (cs : List Cached) : List Out :=
  (cs.filter (sel E t via)).flatMap fun c => E.groups.map (out E now c.input)

theorem bringIn_spec {E : Env} {now : Int} {t via : Nat} :
    ∀ {cs : List Cached} {s : St} {r : List Cached × St × List Eff}, bringIn E now t via cs s = some r →
      r.1 = cs.map (upd E t via) ∧ outs r.2.2 = selOuts E now t via cs := by
  intro cs
  induction cs with
  | nil => intro s r h; cases h; exact ⟨rfl, rfl⟩
  | cons c cs ih =>
    intro s r h
    unfold bringIn at h
    have hsel : (c.injected || !E.sharesVia t via c.input.fact) = !sel E t via c := by
      unfold sel; cases c.injected <;> simp
    rw [hsel] at h
    by_cases hs : sel E t via c = true
    · rw [if_neg (by simp [hs])] at h
      obtain ⟨p, hp, h⟩ := Option.bind_eq_some_iff.1 h
      obtain ⟨q, hq, rfl⟩ := Option.map_eq_some_iff.1 h
      obtain ⟨i1, i2⟩ := ih hq
      obtain ⟨-, o1⟩ := injectStore_out (s' := p.1) (es := p.2) hp
      refine ⟨?_, ?_⟩
      · rw [List.map_cons, ← i1]
        unfold upd
        rw [if_pos hs]
      · dsimp only
        rw [outs_append, o1, i2]
        unfold selOuts
        rw [List.filter_cons_of_pos hs, List.flatMap_cons]
    · rw [if_pos (by simp [hs])] at h
      obtain ⟨q, hq, rfl⟩ := Option.map_eq_some_iff.1 h
      obtain ⟨i1, i2⟩ := ih hq
      refine ⟨?_, ?_⟩
      · rw [List.map_cons, ← i1]
        unfold upd
        rw [if_neg hs]
      · dsimp only
        rw [i2]
        unfold selOuts
        rw [List.filter_cons_of_neg hs]

theorem bringIn_ok {E : Env} {now : Int} {t via : Nat} (hg : E.groups ≠ []) :
    ∀ (cs : List Cached) (s : St), (∀ c ∈ cs, c.input.sync ≠ .onceAxiom) → ∃ r, bringIn E now t via cs s = some r := by
  intro cs
  induction cs with
  | nil => intro s _; exact ⟨_, rfl⟩
  | cons c cs ih =>
    intro s hc
    unfold bringIn
    split
    · obtain ⟨r, hr⟩ := ih s fun c' h => hc c' (List.mem_cons_of_mem _ h)
      exact ⟨_, by rw [hr]; rfl⟩
    · obtain ⟨s', es, h1⟩ := injectStore_ok (now := now) s hg (hc c List.mem_cons_self)
      obtain ⟨r, hr⟩ := ih s' fun c' h => hc c' (List.mem_cons_of_mem _ h)
      exact ⟨_, by rw [h1, Option.bind_some, hr]; rfl⟩

/-- `x` is a new match for what `t` leaves open. -/
structure NewMatch (E : Env) (t : Tpx) (x : In) : Prop where
  open_ : E.full t.target = false
  apart : E.shares t.target x.fact = false
  new : ∀ m ∈ t.maps, E.sharesVia t.target m x.fact = false
  fits : E.fits x.fact t.target = true

theorem NewMatch.interested {E : Env} {t : Tpx} {x : In} (h : NewMatch E t x) : Interested E t x :=
  .inr ⟨h.open_, .inr h.fits⟩

/-- What an extractor can do to the cache, and what it causes to be sent. -/
inductive Step (E : Env) (now : Int) (x : In) (t : Tpx) : List Cached → List Out → List Cached → Prop
  | same (cs) : ¬ NewMatch E t x → (Interested E t x ∨ E.full t.target = true) → Step E now x t cs [] cs
  | recall (cs) : NewMatch E t x →
      Step E now x t cs (selOuts E now t.target x.fact (sweep E now cs)) ((sweep E now cs).map (upd E t.target x.fact))
  | keep (cs) : ¬ Interested E t x → E.full t.target = false →
      Step E now x t cs [] (if (find E now x.view cs).2 then (find E now x.view cs).1
        else (find E now x.view cs).1 ++ [⟨x, false⟩])

theorem takeInput_step {E : Env} {now : Int} {t : Tpx} {s : St} {x : In} {r : Filtered}
    (h : takeInput E now t s x = some r) :
    (r.taken = true ↔ Interested E t x) ∧ Step E now x t s.cache (outs r.effs) r.st.cache := by
  unfold takeInput at h
  obtain ⟨q, hq, rfl⟩ := Option.map_eq_some_iff.1 h
  have main : (q.taken = true ↔ Interested E t x) ∧ Step E now x t s.cache (outs q.effs) q.st.cache := by
    unfold filter at hq
    by_cases h1 : E.shares t.target x.fact = true
    · rw [if_pos h1] at hq
      cases hq
      exact ⟨⟨fun _ => .inl h1, fun _ => rfl⟩, .same _ (fun hn => by rw [hn.apart] at h1; cases h1) (.inl (.inl h1))⟩
    · rw [if_neg h1] at hq
      by_cases h2 : E.full t.target = true
      · rw [if_pos h2] at hq
        cases hq
        refine ⟨⟨fun h => (by cases h), ?_⟩, .same _ (fun hn => by rw [hn.open_] at h2; cases h2) (.inr h2)⟩
        rintro (h | ⟨h, -⟩)
        · exact absurd h h1
        · rw [h2] at h; cases h
      · rw [if_neg h2] at hq
        have h2' : E.full t.target = false := by simpa using h2
        by_cases h3 : (t.maps.any fun m => E.sharesVia t.target m x.fact) = true
        · rw [if_pos h3] at hq
          cases hq
          have h3' := List.any_eq_true.1 h3
          refine ⟨⟨fun _ => .inr ⟨h2', .inl h3'⟩, fun _ => rfl⟩, .same _ (fun hn => ?_) (.inl (.inr ⟨h2', .inl h3'⟩))⟩
          obtain ⟨m, hm, hs⟩ := h3'
          rw [hn.new m hm] at hs; cases hs
        · rw [if_neg h3] at hq
          have h3' : ∀ m ∈ t.maps, E.sharesVia t.target m x.fact = false := by
            intro m hm
            by_contra hc
            exact h3 (List.any_eq_true.2 ⟨m, hm, by simpa using hc⟩)
          by_cases h4 : E.fits x.fact t.target = true
          · rw [if_pos h4] at hq
            obtain ⟨p, hp, rfl⟩ := Option.map_eq_some_iff.1 hq
            have hn : NewMatch E t x := ⟨h2', by simpa using h1, h3', h4⟩
            obtain ⟨b1, b2⟩ := bringIn_spec hp
            refine ⟨⟨fun _ => hn.interested, fun _ => rfl⟩, ?_⟩
            dsimp only
            rw [b1, b2]
            exact .recall _ hn
          · rw [if_neg h4] at hq
            cases hq
            have hi : ¬ Interested E t x := by
              rintro (h | ⟨-, ⟨m, hm, h⟩ | h⟩)
              · exact h1 h
              · rw [h3' m hm] at h; cases h
              · exact h4 h
            exact ⟨⟨fun h => (by cases h), fun h => absurd h hi⟩, .keep _ hi h2'⟩
  dsimp only
  split
  · exact main
  · exact main

theorem takeInput_ok {E : Env} {now : Int} (t : Tpx) {s : St} (x : In) (hg : E.groups ≠ [])
    (hc : ∀ c ∈ s.cache, c.input.sync ≠ .onceAxiom) : ∃ r, takeInput E now t s x = some r := by
  have hsw : ∀ c ∈ sweep E now s.cache, c.input.sync ≠ .onceAxiom := by
    intro c h
    apply hc
    revert h
    cases s.cache with
    | nil => exact id
    | cons a as =>
      intro h
      rcases List.mem_cons.1 h with rfl | h
      · exact List.mem_cons_self
      · exact List.mem_cons_of_mem _ (List.mem_filter.1 h).1
  unfold takeInput filter
  by_cases h1 : E.shares t.target x.fact = true
  · rw [if_pos h1]; exact ⟨_, rfl⟩
  · rw [if_neg h1]
    by_cases h2 : E.full t.target = true
    · rw [if_pos h2]; exact ⟨_, rfl⟩
    · rw [if_neg h2]
      by_cases h3 : (t.maps.any fun m => E.sharesVia t.target m x.fact) = true
      · rw [if_pos h3]; exact ⟨_, rfl⟩
      · rw [if_neg h3]
        by_cases h4 : E.fits x.fact t.target = true
        · rw [if_pos h4]
          obtain ⟨p, hp⟩ := bringIn_ok (now := now) (t := t.target) (via := x.fact) hg _ s hsw
          rw [hp]
          exact ⟨_, rfl⟩
        · rw [if_neg h4]; exact ⟨_, rfl⟩

/-- One extractor of a dispatch. -/
theorem dispatch_cons {E : Env} {now : Int} {x : In} {t : Tpx} {ts : List Tpx} {inj : Bool} {s : St} {d : Dispatched}
    (h : dispatch E now x (t :: ts) inj s = some d) :
    ∃ (os : List Out) (s1 : St) (inj1 : Bool) (d' : Dispatched), Step E now x t s.cache os s1.cache ∧
      dispatch E now x ts inj1 s1 = some d' ∧ d.injected = d'.injected ∧ d.st = d'.st ∧
      ((Interested E t x ∧ inj = false ∧ inj1 = true ∧ outs d.effs = os ++ E.groups.map (out E now x) ++ outs d'.effs) ∨
        (¬ (Interested E t x ∧ inj = false) ∧ inj1 = inj ∧ outs d.effs = os ++ outs d'.effs)) := by
  unfold dispatch at h
  obtain ⟨r, hr, h⟩ := Option.bind_eq_some_iff.1 h
  obtain ⟨h1, h2⟩ := takeInput_step hr
  dsimp only at h
  by_cases hc : (r.taken && !inj) = true
  · rw [if_pos hc] at h
    obtain ⟨p, hp, h⟩ := Option.bind_eq_some_iff.1 h
    obtain ⟨d', hd', rfl⟩ := Option.map_eq_some_iff.1 h
    obtain ⟨i1, i2⟩ := injectStore_out (s' := p.1) (es := p.2) hp
    rw [Bool.and_eq_true] at hc
    refine ⟨_, p.1, true, d', by rw [i1]; exact h2, hd', rfl, rfl, .inl ⟨h1.1 hc.1, by simpa using hc.2, rfl, ?_⟩⟩
    simp only [outs_append, i2]
  · rw [if_neg hc] at h
    obtain ⟨d', hd', rfl⟩ := Option.map_eq_some_iff.1 h
    refine ⟨_, r.st, inj, d', h2, hd', rfl, rfl, .inr ⟨?_, rfl, ?_⟩⟩
    · rintro ⟨hi, rfl⟩
      exact hc (by simp [h1.2 hi])
    · simp only [outs_append]
      simp [outs]

theorem sweep_sub {E : Env} {now : Int} {cs : List Cached} : List.Sublist (sweep E now cs) cs := by
  cases cs with
  | nil => exact List.Sublist.refl _
  | cons c cs => exact List.Sublist.cons_cons _ List.filter_sublist

theorem findIn_sub {E : Env} {now : Int} {v : Nat} : ∀ {cs : List Cached}, List.Sublist (findIn E now v cs).1 cs := by
  intro cs
  induction cs with
  | nil => exact List.Sublist.refl _
  | cons c cs ih =>
    unfold findIn
    split
    · exact ih.cons _
    · split
      · exact List.Sublist.refl _
      · exact List.Sublist.cons_cons _ ih

theorem find_sub {E : Env} {now : Int} {v : Nat} {cs : List Cached} : List.Sublist (find E now v cs).1 cs := by
  cases cs with
  | nil => exact List.Sublist.refl _
  | cons c cs =>
    simp only [find]
    split
    · exact List.Sublist.refl _
    · exact List.Sublist.cons_cons _ findIn_sub

end Verif.Focus
