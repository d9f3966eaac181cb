import Verif.Requirements.Model
import Verif.CellList.Props
/-!
# C43, C44: requirements
-/
namespace Verif.Requirements
open Verif.CellList

/-- The list `s` is well formed and holds the entries `u`, in order (with their positions). -/
def Holds (s : St Entry) (u : List (Nat × Entry)) : Prop := ∃ f, Rep s u f

/-- Every list that any history of operations produces holds some entries: those that iteration sees. -/
theorem holds_of_reach {s : St Entry} (h : Reach s) : ∃ u, Holds s u ∧ entries s = some u := by
  obtain ⟨u, f, r, hu⟩ := reach_rep h
  exact ⟨u, ⟨f, r⟩, hu⟩
theorem Holds.entries {s : St Entry} {u} (h : Holds s u) : entries s = some u := by
  obtain ⟨f, r⟩ := h; exact entries_spec r

/-- The requirements in a cache. -/
abbrev vals (u : List (Nat × Entry)) : List Entry := u.map Prod.snd

/-- Not invalidated, and not over: an instantaneous requirement lasts until its instant, another one
until just before its end. -/
def Live (now : Nat) (e : Entry) : Prop :=
  e.inv = false ∧ (now < e.bef ∨ (e.aft = e.bef ∧ now = e.bef))
/-- Live, begun, and made by a chaining that was itself allowed. -/
def InForce (now : Nat) (e : Entry) : Prop := Live now e ∧ e.aft ≤ now ∧ e.allowed = true

/-- `s` is the first element of `l` satisfying `P`. -/
def First (P : Entry → Prop) (l : List Entry) (s : Entry) : Prop :=
  ∃ pre post, l = pre ++ s :: post ∧ P s ∧ ∀ x ∈ pre, ¬ P x

/-- How requirements gate a model: `use` says which entries count, `beats e s` that the weak `e` is not
contradicted by the strong `s` or prevails. -/
def Gate (use : Entry → Prop) (q : Query) (beats : Entry → Entry → Prop) (wr sr : Nat) (P N : List Entry)
    (fired : Bool) : Prop :=
  (wr = 0 → sr = 0 → fired = true) ∧
  (wr ≠ 0 → sr = 0 → (fired = true ↔ ∃ e ∈ P, use e ∧ q.weak e = true)) ∧
  (wr = 0 → sr ≠ 0 → (fired = true ↔ ¬ ∃ e ∈ N, use e ∧ q.strong e = true)) ∧
  (wr ≠ 0 → sr ≠ 0 → (fired = true ↔ ∃ e ∈ P, use e ∧ q.weak e = true ∧
    ∀ s, First (fun x => use x ∧ q.strong x = true) N s → beats e s))

/-- Not contradicted, or more confident. -/
def Beats (q : Query) (e s : Entry) : Prop := q.contra e s = false ∨ s.cfd < e.cfd

/-! ## Lemmas -/

theorem live_iff {now : Nat} {e : Entry} : (!tooOld now e) = true ↔ Live now e := by
  unfold tooOld Live
  by_cases h : e.aft = e.bef
  · simp only [h, if_true]
    simp only [Bool.not_eq_true', Bool.or_eq_false_iff, decide_eq_false_iff_not]
    constructor
    · rintro ⟨h1, h2⟩; exact ⟨h1, by simp only [true_and]; omega⟩
    · rintro ⟨h1, h2⟩; exact ⟨h1, by simp only [true_and] at h2; omega⟩
  · simp only [h, if_false, false_and, or_false]
    simp

/-- The entries that the forward loops act upon. -/
def usable (now : Nat) (e : Entry) : Bool := !tooOld now e && !outOfRange now e && e.allowed

theorem usable_iff {now : Nat} {e : Entry} : usable now e = true ↔ InForce now e := by
  unfold usable InForce
  rw [Bool.and_eq_true, Bool.and_eq_true, live_iff]
  unfold outOfRange Live
  simp only [Bool.not_eq_true', Bool.or_eq_false_iff, decide_eq_false_iff_not]
  constructor
  · rintro ⟨⟨h1, h2⟩, h3⟩; exact ⟨h1, by omega, h3⟩
  · rintro ⟨h1, h2, h3⟩; exact ⟨⟨h1, by have := h1.2; omega⟩, h3⟩

theorem first_iff (p : Entry → Bool) (l : List Entry) (s : Entry) :
    l.find? p = some s ↔ First (fun x => p x = true) l s := by
  rw [List.find?_eq_some_iff_append]
  unfold First
  constructor
  · rintro ⟨h1, as, bs, h2, h3⟩
    exact ⟨as, bs, h2, h1, fun x hx => by have := h3 x hx; simpa using this⟩
  · rintro ⟨pre, post, h1, h2, h3⟩
    exact ⟨h2, pre, post, h1, fun x hx => by simpa using h3 x hx⟩

theorem fwdWeak_fold (q : Query) (now : Nat) (l : List Entry) : ∀ a : Acc,
    (l.foldl (fwdWeak q now) a).r =
      (if l.any (fun e => !outOfRange now e && e.allowed && q.weak e) then .weakEnabled else a.r) ∧
    (l.foldl (fwdWeak q now) a).results =
      a.results ++ (l.filter fun e => !outOfRange now e && e.allowed && q.weak e).map Res.weak := by
  induction l with
  | nil => intro a; simp
  | cons e l ih =>
    intro a
    obtain ⟨h1, h2⟩ := ih (fwdWeak q now a e)
    rw [List.foldl_cons, h1, h2]
    unfold fwdWeak
    by_cases ho : outOfRange now e = true
    · simp [ho]
    · by_cases hw : q.weak e = true
      · by_cases ha : e.allowed = true
        · simp [ho, hw, ha]
        · simp [ho, hw, ha]
      · simp [ho, hw]

theorem fwdStrong_done (q : Query) (now : Nat) (r0 : Status) (l : List Entry) : ∀ a : Acc, a.r ≠ r0 →
    (l.foldl (fwdStrong q now r0) a).r = a.r ∧ (l.foldl (fwdStrong q now r0) a).first = a.first := by
  induction l with
  | nil => intro a _; exact ⟨rfl, rfl⟩
  | cons e l ih =>
    intro a ha
    have h : (fwdStrong q now r0 a e).r = a.r ∧ (fwdStrong q now r0 a e).first = a.first := by
      unfold fwdStrong
      by_cases ho : outOfRange now e = true
      · simp [ho]
      · by_cases hs : q.strong e = true
        · simp [ho, hs, ha]
        · simp [ho, hs]
    obtain ⟨h1, h2⟩ := ih (fwdStrong q now r0 a e) (by rw [h.1]; exact ha)
    rw [List.foldl_cons, h1, h2]; exact h

theorem fwdStrong_fold (q : Query) (now : Nat) (r0 : Status) (hr0 : r0 ≠ .strongNoWeak) (l : List Entry) :
    ∀ a : Acc, a.r = r0 → a.first = none →
    (l.foldl (fwdStrong q now r0) a).first = l.find? (fun e => !outOfRange now e && e.allowed && q.strong e) ∧
    (l.foldl (fwdStrong q now r0) a).r =
      (if (l.find? fun e => !outOfRange now e && e.allowed && q.strong e).isSome then .strongNoWeak else r0) := by
  induction l with
  | nil => intro a h1 h2; simp [h1, h2]
  | cons e l ih =>
    intro a h1 h2
    rw [List.foldl_cons]
    by_cases hp : (!outOfRange now e && e.allowed && q.strong e) = true
    · rw [List.find?_cons_of_pos (p := fun e => !outOfRange now e && e.allowed && q.strong e) hp]
      simp only [Bool.and_eq_true, Bool.not_eq_true'] at hp
      have hf : (fwdStrong q now r0 a e).r = .strongNoWeak ∧ (fwdStrong q now r0 a e).first = some e := by
        unfold fwdStrong; simp [hp, h1]
      obtain ⟨k1, k2⟩ := fwdStrong_done q now r0 l (fwdStrong q now r0 a e) (by rw [hf.1]; exact hr0.symm)
      rw [k1, k2, hf.1, hf.2]; simp
    · rw [List.find?_cons_of_neg (p := fun e => !outOfRange now e && e.allowed && q.strong e) hp]
      refine ih _ ?_ ?_
      · unfold fwdStrong
        by_cases ho : outOfRange now e = true
        · simp [ho, h1]
        · by_cases hs : q.strong e = true
          · have : e.allowed = false := by simpa [ho, hs] using hp
            simp [ho, hs, this, h1]
          · simp [ho, hs, h1]
      · unfold fwdStrong
        by_cases ho : outOfRange now e = true
        · simp [ho, h2]
        · by_cases hs : q.strong e = true
          · have : e.allowed = false := by simpa [ho, hs] using hp
            simp [ho, hs, this, h2]
          · simp [ho, hs, h2]

/-- The weak entries that prevail against `first`. -/
def wins (q : Query) (first : Option Entry) (e : Entry) : Bool :=
  match first with | some s => !q.contra e s || decide (s.cfd < e.cfd) | none => true

theorem wins_eq (q : Query) (a : Acc) (e : Entry) :
    (!a.contradicted q e || decide (a.negCfd < e.cfd)) = wins q a.first e := by
  unfold Acc.contradicted Acc.negCfd wins
  cases a.first <;> simp

theorem wins_iff (q : Query) (p : Entry → Bool) (N : List Entry) (e : Entry) :
    wins q (N.find? p) e = true ↔ ∀ s, First (fun x => p x = true) N s → Beats q e s := by
  constructor
  · intro h s hs
    rw [(first_iff p N s).2 hs] at h
    simpa [wins, Beats] using h
  · intro h
    cases hf : N.find? p with
    | none => rfl
    | some s => simpa [wins, Beats] using h s ((first_iff p N s).1 hf)

/-- What the loops over weak requirements do when there are strong ones too. -/
theorem both_fold (v : Acc → Entry → Acc) (sel : Entry → Bool) (win : Option Entry → Entry → Bool)
    (hv : ∀ a e, (v a e).first = a.first ∧
      (sel e = false → (v a e).r = a.r) ∧
      (sel e = true → win a.first e = true → (v a e).r = .weakEnabled) ∧
      (sel e = true → win a.first e = false →
        (v a e).r = a.r ∨ (a.r ≠ .weakEnabled ∧ (v a e).r = .strongDisabledWeak))) (l : List Entry) :
    ∀ a : Acc, (l.foldl v a).first = a.first ∧
      (fires (l.foldl v a).r = true ↔ fires a.r = true ∨ ∃ e ∈ l, sel e = true ∧ win a.first e = true) ∨
      a.r = .noRequirement := by
  induction l with
  | nil => intro a; left; simp
  | cons e l ih =>
    intro a
    by_cases hn : a.r = .noRequirement
    · exact Or.inr hn
    left
    obtain ⟨h1, h2, h3, h4⟩ := hv a e
    have hrn : (v a e).r ≠ .noRequirement := by
      cases hs : sel e with
      | false => rw [h2 hs]; exact hn
      | true =>
        cases hw : win a.first e with
        | true => rw [h3 hs hw]; decide
        | false =>
          rcases h4 hs hw with h | h
          · rw [h]; exact hn
          · rw [h.2]; decide
    rcases ih (v a e) with ⟨k1, k2⟩ | h
    · refine ⟨by rw [List.foldl_cons, k1, h1], ?_⟩
      rw [List.foldl_cons, k2, h1]
      cases hs : sel e with
      | false => rw [h2 hs]; simp [hs]
      | true =>
        cases hw : win a.first e with
        | true =>
          rw [h3 hs hw]
          simp only [List.mem_cons, exists_eq_or_imp, hs, hw, and_self, true_or, or_true, iff_true]
          left; decide
        | false =>
          rcases h4 hs hw with h | ⟨h', h⟩
          · rw [h]; simp [hs, hw]
          · rw [h]
            have : fires a.r = false := by
              cases hr : a.r <;> first | rfl | exact absurd hr hn | exact absurd hr h'
            simp [hs, hw, this, show fires Status.strongDisabledWeak = false by decide]
    · exact absurd h hrn

theorem fires_finish (a : Acc) : fires (finish a).r = fires a.r := by
  unfold finish; split <;> rfl

theorem any_filter (now : Nat) (P : List Entry) (p : Entry → Bool) :
    (∃ e ∈ P.filter (fun e => !tooOld now e), p e = true) ↔ ∃ e ∈ P, (!tooOld now e) = true ∧ p e = true := by
  simp only [List.mem_filter]
  constructor
  · rintro ⟨e, ⟨h1, h2⟩, h3⟩; exact ⟨e, h1, h2, h3⟩
  · rintro ⟨e, h1, h2, h3⟩; exact ⟨e, ⟨h1, h2⟩, h3⟩

/-! ## C43 -/

section
variable {pos neg : St Entry} {P N : List (Nat × Entry)}

/-- The strong-only loop behaves if no strong requirement has expired. -/
theorem strongOnly_spec (q : Query) (now : Nat) (pos : St Entry) (u : List (Nat × Entry)) :
    ∀ (neg : St Entry) (a : List (Nat × Entry)) (k : Nat) (x : Acc), u.length ≤ k → Holds neg (a ++ u) →
    (∀ e ∈ vals u, tooOld now e = false) →
    fwdStrongOnly q now k ⟨pos, neg⟩ true (hd u) x =
      some ((vals u).foldl (fwdStrong q now .noRequirement) x, ⟨pos, neg⟩) := by
  induction u with
  | nil => intro neg a k x _ _ _; cases k <;> rfl
  | cons e u ih =>
    intro neg a k x hk hh ho
    cases k with
    | zero => simp at hk
    | succ k =>
      obtain ⟨f, r⟩ := hh
      obtain ⟨h1, -⟩ := seg_tail_of_rep r
      have he : tooOld now e.2 = false := ho e.2 (by simp)
      simp only [hd_cons, fwdStrongOnly, if_true, h1, he, Option.or_none]
      rw [if_neg (by simp)]
      rw [ih neg (a ++ [e]) k _ (by simpa using hk) ⟨f, by simpa using r⟩
        (fun y hy => ho y (by simp only [vals, List.map_cons, List.mem_cons]; exact Or.inr hy))]
      simp [vals]

/-- C43 for forward chaining as stated. -/
def C43_full : Prop :=
  ∀ (q : Query) (now wr sr : Nat) (pos neg : St Entry) (P N : List (Nat × Entry)), Holds pos P → Holds neg N →
    ∃ fuel a c', fwd q now wr sr fuel ⟨pos, neg⟩ = some (a, c') ∧
      Gate (InForce now) q (Beats q) wr sr (vals P) (vals N) (fires a.r)

/-- C43, forward (missing: a model with strong requirements only, one of which has expired): the
prediction is made exactly as the requirements say, and with weak requirements only the instances
produced are exactly those of the matching requirements in force. -/
theorem C43_fwd_partial (q : Query) (now wr sr fuel : Nat) (hp : Holds pos P) (hn : Holds neg N)
    (hexp : wr = 0 → sr ≠ 0 → ∀ e ∈ vals N, Live now e) (hfuel : N.length ≤ fuel) :
    ∃ a c', fwd q now wr sr fuel ⟨pos, neg⟩ = some (a, c') ∧
      Gate (InForce now) q (Beats q) wr sr (vals P) (vals N) (fires a.r) ∧
      (wr ≠ 0 → sr = 0 → ∃ es : List Entry, a.results = es.map Res.weak ∧
        es.Sublist (vals P) ∧ ∀ e ∈ vals P, e ∈ es ↔ InForce now e ∧ q.weak e = true) := by
  unfold fwd
  by_cases h0 : wr + sr = 0
  · rw [if_pos h0]
    exact ⟨_, _, rfl, ⟨fun _ _ => rfl, by omega, by omega, by omega⟩, by omega⟩
  rw [if_neg h0]
  by_cases hs : sr = 0
  · rw [if_pos hs]
    obtain ⟨fr, r⟩ := hp
    obtain ⟨s', fr', e1, r1⟩ := gcAll_spec (tooOld now) (fun a e => (fwdWeak q now a e, false)) r
      ({ r := .weakDisabled } : Acc)
    rw [e1, gcList_fold]
    obtain ⟨f1, f2⟩ := fwdWeak_fold q now ((vals P).filter fun e => !tooOld now e) { r := .weakDisabled }
    refine ⟨_, _, rfl, ⟨by omega, fun _ _ => ?_, by omega, by omega⟩, fun _ _ => ⟨_, by rw [f2]; rfl, ?_, ?_⟩⟩
    · rw [f1]
      have : (((vals P).filter fun e => !tooOld now e).any
          fun e => !outOfRange now e && e.allowed && q.weak e) = true ↔
          ∃ e ∈ vals P, InForce now e ∧ q.weak e = true := by
        rw [List.any_eq_true, any_filter]
        constructor
        · rintro ⟨e, h1, h2, h3⟩
          simp only [Bool.and_eq_true] at h3
          exact ⟨e, h1, usable_iff.1 (by simp only [usable, Bool.and_eq_true]; exact ⟨⟨h2, h3.1.1⟩, h3.1.2⟩), h3.2⟩
        · rintro ⟨e, h1, h2, h3⟩
          have := usable_iff.2 h2
          simp only [usable, Bool.and_eq_true] at this
          exact ⟨e, h1, this.1.1, by simp only [Bool.and_eq_true]; exact ⟨⟨this.1.2, this.2⟩, h3⟩⟩
      rw [← this]
      cases hb : (((vals P).filter fun e => !tooOld now e).any
          fun e => !outOfRange now e && e.allowed && q.weak e) <;> simp [fires, Status.toNat]
    · exact List.Sublist.trans List.filter_sublist List.filter_sublist
    · intro e he
      rw [List.mem_filter, List.mem_filter, ← usable_iff]
      simp only [usable, Bool.and_eq_true]
      constructor
      · rintro ⟨⟨_, h1⟩, ⟨h2, h3⟩, h4⟩; exact ⟨⟨⟨h1, h2⟩, h3⟩, h4⟩
      · rintro ⟨⟨⟨h1, h2⟩, h3⟩, h4⟩; exact ⟨⟨he, h1⟩, ⟨h2, h3⟩, h4⟩
  rw [if_neg hs]
  by_cases hw : wr = 0
  · rw [if_pos hw]
    have hlive := hexp hw hs
    obtain ⟨fr, r⟩ := id hn
    simp only [r.hhead]
    rw [strongOnly_spec q now pos N neg [] fuel _ hfuel hn
      (fun e he => by have := live_iff.2 (hlive e he); simpa using this)]
    obtain ⟨f1, f2⟩ := fwdStrong_fold q now .noRequirement (by decide) (vals N) { r := .noRequirement } rfl rfl
    refine ⟨_, _, rfl, ⟨by omega, by omega, fun _ _ => ?_, by omega⟩, by omega⟩
    rw [f2]
    cases hf : (vals N).find? fun e => !outOfRange now e && e.allowed && q.strong e with
    | none =>
      simp only [Option.isSome_none, Bool.false_eq_true, if_false, fires, Status.toNat]
      have := List.find?_eq_none.1 hf
      constructor
      · rintro _ ⟨e, h1, h2, h3⟩
        have h4 := usable_iff.2 h2
        simp only [usable, Bool.and_eq_true] at h4
        exact this e h1 (by simp only [Bool.and_eq_true]; exact ⟨⟨h4.1.2, h4.2⟩, h3⟩)
      · intro _; decide
    | some s =>
      simp only [Option.isSome_some, if_true, fires, Status.toNat]
      have h1 := List.find?_some hf
      have h2 := List.mem_of_find?_eq_some hf
      simp only [Bool.and_eq_true] at h1
      constructor
      · intro h; exact absurd h (by decide)
      · intro h
        exact absurd ⟨s, h2, usable_iff.1 (by
          simp only [usable, Bool.and_eq_true]
          exact ⟨⟨live_iff.2 (hlive s h2), h1.1.1⟩, h1.1.2⟩), h1.2⟩ h
  rw [if_neg hw]
  obtain ⟨fn, rn⟩ := hn
  obtain ⟨fp, rp⟩ := hp
  obtain ⟨n', fn', en, rn'⟩ := gcAll_spec (tooOld now) (fun a e => (fwdStrong q now .weakDisabled a e, false)) rn
    ({ r := .weakDisabled } : Acc)
  simp only [en, gcList_fold]
  obtain ⟨f1, f2⟩ := fwdStrong_fold q now .weakDisabled (by decide) ((vals N).filter fun e => !tooOld now e)
    { r := .weakDisabled } rfl rfl
  generalize hacc : List.foldl (fwdStrong q now .weakDisabled) { r := .weakDisabled }
    ((vals N).filter fun e => !tooOld now e) = acc at *
  obtain ⟨p', fp', ep, rp'⟩ := gcAll_spec (tooOld now) (fun a e => (fwdBoth q now a e, false)) rp acc
  simp only [ep, gcList_fold]
  refine ⟨_, _, rfl, ⟨by omega, by omega, by omega, fun _ _ => ?_⟩, by omega⟩
  rw [fires_finish]
  have hnr : acc.r ≠ .noRequirement := by rw [f2]; split <;> decide
  have hnf : fires acc.r = false := by rw [f2]; split <;> decide
  rcases both_fold (fwdBoth q now) (fun e => !outOfRange now e && e.allowed && q.weak e) (wins q)
    (fun a e => by
      unfold fwdBoth
      by_cases ho : outOfRange now e = true
      · simp [ho]
      · by_cases hwk : q.weak e = true
        · by_cases ha : e.allowed = true
          · simp only [ho, hwk, ha, if_true]
            rw [if_neg (by simp)]
            simp only [wins_eq]
            cases hwin : wins q a.first e with
            | true => simp
            | false =>
              simp only [Bool.false_eq_true, if_false]
              by_cases hr : a.r = .weakEnabled
              · simp [hr]
              · simp [hr]
          · simp [ho, hwk, ha]
        · simp [ho, hwk]) ((vals P).filter fun e => !tooOld now e) acc with ⟨_, h⟩ | h
  · have hfe : ((vals N).filter fun e => !tooOld now e).find?
        (fun e => !outOfRange now e && e.allowed && q.strong e) =
        (vals N).find? fun e => usable now e && q.strong e := by
      rw [List.find?_filter]
      congr 1; funext e
      simp only [usable]
      cases tooOld now e <;> cases outOfRange now e <;> cases e.allowed <;> cases q.strong e <;> rfl
    rw [h, hnf, f1, hfe]
    have hF : ∀ s, First (fun x => InForce now x ∧ q.strong x = true) (vals N) s ↔
        First (fun x => (usable now x && q.strong x) = true) (vals N) s := by
      intro s
      have : (fun x => InForce now x ∧ q.strong x = true) = fun x => (usable now x && q.strong x) = true := by
        funext x; simp [← usable_iff]
      rw [this]
    simp only [Bool.false_eq_true, false_or, hF, wins_iff, Bool.and_eq_true, List.mem_filter]
    constructor
    · rintro ⟨e, ⟨h1, h2⟩, ⟨⟨h3, h4⟩, h5⟩, h6⟩
      exact ⟨e, h1, usable_iff.1 (by simp only [usable, Bool.and_eq_true]; exact ⟨⟨h2, h3⟩, h4⟩), h5, h6⟩
    · rintro ⟨e, h1, h2, h3, h4⟩
      have := usable_iff.2 h2
      simp only [usable, Bool.and_eq_true] at this
      exact ⟨e, ⟨h1, this.1.1⟩, ⟨⟨this.1.2, this.2⟩, h3⟩, h4⟩
  · exact absurd h hnr

/-- The loops that stop at the first matching strong requirement. -/
theorem first_strong (now : Nat) (sel : Entry → Bool) (r0 : Status) (g : Acc → Entry → Acc)
    (hg : ∀ a e, (g a e).r = .strongNoWeak ∧ (g a e).first = some e) (hn : Holds neg N) :
    ∃ a n', (gcAll (tooOld now) (fun a e => if sel e then (g a e, true) else (a, false))
        neg ({ r := r0 } : Acc)) = some (a, ((vals N).find? fun e => !tooOld now e && sel e).isSome, n') ∧
      a.first = ((vals N).find? fun e => !tooOld now e && sel e) ∧
      a.r = (if ((vals N).find? fun e => !tooOld now e && sel e).isSome then .strongNoWeak else r0) ∧
      ∃ v w, N = v ++ w ∧ Holds n' (v.filter (fun e => !tooOld now e.2) ++ w) := by
  obtain ⟨f, r⟩ := hn
  obtain ⟨n', f', e1, r1⟩ := gcAll_spec (tooOld now) (fun a e => if sel e then (g a e, true) else (a, false)) r
    ({ r := r0 } : Acc)
  obtain ⟨v, w, h1, h2, -, -⟩ := gcList_find (tooOld now) sel g N ({ r := r0 } : Acc)
  rw [h2] at e1 r1
  have hff : ((N.map Prod.snd).filter fun e => !tooOld now e).find? sel =
      (vals N).find? fun e => !tooOld now e && sel e := by
    rw [List.find?_filter]
    congr 1; funext e
    cases tooOld now e <;> simp
  rw [hff] at e1
  refine ⟨_, n', e1, ?_, ?_, v, w, h1, f', r1⟩
  · cases (vals N).find? fun e => !tooOld now e && sel e with
    | none => rfl
    | some s => exact (hg _ s).2
  · cases (vals N).find? fun e => !tooOld now e && sel e with
    | none => rfl
    | some s => exact (hg _ s).1

/-- The loops that stop at the first matching weak requirement. -/
theorem first_weak (now : Nat) (sel : Entry → Bool) (hp : Holds pos P) :
    ∃ a p', (gcAll (tooOld now) (fun a e => if sel e then
        ({ a with r := .weakEnabled, loaded := some e, ground := some e }, true) else (a, false))
        pos ({ r := .weakDisabled } : Acc)) =
          some (a, ((vals P).find? fun e => !tooOld now e && sel e).isSome, p') ∧
      a.ground = ((vals P).find? fun e => !tooOld now e && sel e) ∧ a.loaded = a.ground ∧
      a.r = (if ((vals P).find? fun e => !tooOld now e && sel e).isSome then .weakEnabled else .weakDisabled) ∧
      ∃ v w, P = v ++ w ∧ Holds p' (v.filter (fun e => !tooOld now e.2) ++ w) := by
  obtain ⟨f, r⟩ := hp
  obtain ⟨n', f', e1, r1⟩ := gcAll_spec (tooOld now) (fun (a : Acc) e => if sel e then
        ({ a with r := .weakEnabled, loaded := some e, ground := some e }, true) else (a, false)) r
    ({ r := .weakDisabled } : Acc)
  obtain ⟨v, w, h1, h2, -, -⟩ := gcList_find (tooOld now) sel
    (fun (a : Acc) e => { a with r := .weakEnabled, loaded := some e, ground := some e }) P
    ({ r := .weakDisabled } : Acc)
  rw [h2] at e1 r1
  have hff : ((P.map Prod.snd).filter fun e => !tooOld now e).find? sel =
      (vals P).find? fun e => !tooOld now e && sel e := by
    rw [List.find?_filter]
    congr 1; funext e
    cases tooOld now e <;> simp
  rw [hff] at e1
  refine ⟨_, n', e1, ?_, ?_, ?_, v, w, h1, f', r1⟩ <;>
  · cases (vals P).find? fun e => !tooOld now e && sel e <;> rfl

theorem find_isSome_iff (now : Nat) (sel m : Entry → Bool) (use : Entry → Prop)
    (hu : ∀ e, use e ↔ Live now e ∧ m e = true) (k : Entry → Bool) (hk : ∀ e, sel e = (m e && k e))
    (L : List Entry) :
    (L.find? fun e => !tooOld now e && sel e).isSome = true ↔ ∃ e ∈ L, use e ∧ k e = true := by
  rw [List.find?_isSome]
  constructor
  · rintro ⟨e, h1, h2⟩
    rw [hk, Bool.and_eq_true, Bool.and_eq_true, live_iff] at h2
    exact ⟨e, h1, (hu e).2 ⟨h2.1, h2.2.1⟩, h2.2.2⟩
  · rintro ⟨e, h1, h2, h3⟩
    obtain ⟨h4, h5⟩ := (hu e).1 h2
    exact ⟨e, h1, by rw [hk, Bool.and_eq_true, Bool.and_eq_true, live_iff]; exact ⟨h4, h5, h3⟩⟩

theorem first_strong_iff (now : Nat) (sel m : Entry → Bool) (use : Entry → Prop)
    (hu : ∀ e, use e ↔ Live now e ∧ m e = true) (k : Entry → Bool) (hk : ∀ e, sel e = (m e && k e))
    (L : List Entry) (s : Entry) :
    First (fun x => use x ∧ k x = true) L s ↔ (L.find? fun e => !tooOld now e && sel e) = some s := by
  rw [first_iff]
  have : (fun x => use x ∧ k x = true) = fun x => (!tooOld now x && sel x) = true := by
    funext x
    rw [hk, Bool.and_eq_true, Bool.and_eq_true, live_iff, hu, and_assoc]
  rw [this]

/-- The loop over the weak requirements when there are strong ones, for the functions that stop at the
first strong one. -/
theorem both_gate (now : Nat) (v : Acc → Entry → Acc) (sel selS m : Entry → Bool) (q : Query)
    (win : Option Entry → Entry → Bool) (use : Entry → Prop) (beats : Entry → Entry → Prop)
    (hu : ∀ e, use e ↔ Live now e ∧ m e = true) (hsel : ∀ e, sel e = (m e && q.weak e))
    (hselS : ∀ e, selS e = (m e && q.strong e))
    (hwin : ∀ f e, win f e = true ↔ ∀ s, f = some s → beats e s)
    (hv : ∀ a e, (v a e).first = a.first ∧
      (sel e = false → (v a e).r = a.r) ∧
      (sel e = true → win a.first e = true → (v a e).r = .weakEnabled) ∧
      (sel e = true → win a.first e = false →
        (v a e).r = a.r ∨ (a.r ≠ .weakEnabled ∧ (v a e).r = .strongDisabledWeak)))
    (a : Acc) (N P : List Entry) (ha : a.r ≠ .noRequirement) (haf : fires a.r = false)
    (hf : a.first = (N.find? fun e => !tooOld now e && selS e)) :
    fires ((P.filter fun e => !tooOld now e).foldl v a).r = true ↔
      ∃ e ∈ P, use e ∧ q.weak e = true ∧ ∀ s, First (fun x => use x ∧ q.strong x = true) N s → beats e s := by
  rcases both_fold v sel win hv (P.filter fun e => !tooOld now e) a with ⟨_, h⟩ | h
  · rw [h, haf, hf]
    simp only [Bool.false_eq_true, false_or, hwin, first_strong_iff now selS m use hu q.strong hselS]
    constructor
    · rintro ⟨e, h1, h2, h3⟩
      rw [List.mem_filter, live_iff] at h1
      rw [hsel, Bool.and_eq_true] at h2
      exact ⟨e, h1.1, (hu e).2 ⟨h1.2, h2.1⟩, h2.2, h3⟩
    · rintro ⟨e, h1, h2, h3, h4⟩
      obtain ⟨h5, h6⟩ := (hu e).1 h2
      exact ⟨e, by rw [List.mem_filter, live_iff]; exact ⟨h1, h5⟩,
        by rw [hsel, Bool.and_eq_true]; exact ⟨h6, h3⟩, h4⟩
  · exact absurd h ha

theorem wins_iff' (q : Query) (f : Option Entry) (e : Entry) :
    wins q f e = true ↔ ∀ s, f = some s → Beats q e s := by
  cases f <;> simp [wins, Beats]

theorem fires_strong (o : Option Entry) (r0 : Status) (h : r0 = .weakDisabled ∨ r0 = .noRequirement) :
    fires (if o.isSome then Status.strongNoWeak else r0) = true ↔ o.isSome = false ∧ r0 = .noRequirement := by
  cases o <;> rcases h with rfl | rfl <;> simp [fires, Status.toNat]

/-- C43 for backward chaining, where the timings come from the goal (no entry is out of range); with
weak requirements only, the ground is the first (the youngest) that matches. -/
theorem C43_bwd (q : Query) (now wr sr : Nat) (hp : Holds pos P) (hn : Holds neg N) :
    ∃ a c', bwd q now wr sr ⟨pos, neg⟩ = some (a, c') ∧
      Gate (Live now) q (Beats q) wr sr (vals P) (vals N) (fires a.r) ∧
      (wr ≠ 0 → sr = 0 → ∀ s, a.ground = some s ↔ First (fun x => Live now x ∧ q.weak x = true) (vals P) s) := by
  have hu : ∀ e, Live now e ↔ Live now e ∧ (fun _ => true) e = true := by simp
  unfold bwd
  by_cases h0 : wr + sr = 0
  · rw [if_pos h0]
    exact ⟨_, _, rfl, ⟨fun _ _ => rfl, by omega, by omega, by omega⟩, by omega⟩
  rw [if_neg h0]
  by_cases hs : sr = 0
  · rw [if_pos hs]
    obtain ⟨a, p', e1, h1, _, h2, _⟩ := first_weak now q.weak hp
    simp only [e1]
    refine ⟨a, _, rfl, ⟨by omega, fun _ _ => ?_, by omega, by omega⟩, fun _ _ s => ?_⟩
    · rw [h2, ← find_isSome_iff now q.weak (fun _ => true) _ hu q.weak (by simp)]
      cases (vals P).find? fun e => !tooOld now e && q.weak e <;> simp [fires, Status.toNat]
    · rw [h1, first_strong_iff now q.weak (fun _ => true) _ hu q.weak (by simp)]
  rw [if_neg hs]
  by_cases hw : wr = 0
  · rw [if_pos hw]
    obtain ⟨a, n', e1, h1, h2, _⟩ := first_strong now q.strong .noRequirement
      (fun a e => { a with r := .strongNoWeak, first := some e }) (fun _ _ => ⟨rfl, rfl⟩) hn
    simp only [e1]
    refine ⟨a, _, rfl, ⟨by omega, by omega, fun _ _ => ?_, by omega⟩, by omega⟩
    rw [h2, fires_strong _ _ (Or.inr rfl), ← find_isSome_iff now q.strong (fun _ => true) _ hu q.strong (by simp)]
    simp
  rw [if_neg hw]
  obtain ⟨a, n', e1, h1, h2, _⟩ := first_strong now q.strong .weakDisabled
    (fun a e => { a with r := .strongNoWeak, first := some e }) (fun _ _ => ⟨rfl, rfl⟩) hn
  simp only [e1]
  obtain ⟨fp, rp⟩ := hp
  obtain ⟨p', fp', ep, _⟩ := gcAll_spec (tooOld now) (fun a e => (bwdBoth q a e, false)) rp a
  simp only [ep, gcList_fold]
  refine ⟨_, _, rfl, ⟨by omega, by omega, by omega, fun _ _ => ?_⟩, by omega⟩
  refine both_gate now (bwdBoth q) q.weak q.strong (fun _ => true) q (wins q) _ _ hu (by simp) (by simp)
    (wins_iff' q) (fun a e => ?_) a (vals N) (vals P) (by rw [h2]; split <;> decide) ?_ h1
  · unfold bwdBoth
    simp only [wins_eq]
    by_cases hwk : q.weak e = true
    · simp only [hwk, if_true]
      cases hwin : wins q a.first e with
      | true => by_cases hr : a.r = .weakEnabled <;> simp [hr]
      | false => by_cases hr : a.r = .weakEnabled <;> simp [hr]
    · simp [hwk]
  · rw [h2]; split <;> rfl

/-- The requirements that count in a simulation. -/
def LiveIn (q : Query) (now : Nat) (e : Entry) : Prop := Live now e ∧ q.inSim e = true

theorem simFwdWeak_fold (q : Query) (l : List Entry) : ∀ a : Acc,
    (l.foldl (simFwdWeak q) a).r = (if l.any (fun e => q.inSim e && q.weak e) then .weakEnabled else a.r) := by
  induction l with
  | nil => intro a; rfl
  | cons e l ih =>
    intro a
    rw [List.foldl_cons, ih]
    unfold simFwdWeak
    by_cases h : (q.inSim e && q.weak e) = true
    · simp only [h, if_true, List.any_cons, Bool.true_or]; split <;> rfl
    · simp only [Bool.not_eq_true] at h
      simp [h]

/-- C43 for simulated forward chaining. -/
theorem C43_simulated_fwd (q : Query) (now wr sr : Nat) (hp : Holds pos P) (hn : Holds neg N) :
    ∃ a c', simFwd q now wr sr ⟨pos, neg⟩ = some (a, c') ∧
      Gate (LiveIn q now) q (Beats q) wr sr (vals P) (vals N) (fires a.r) := by
  have hu : ∀ e, LiveIn q now e ↔ Live now e ∧ q.inSim e = true := fun _ => Iff.rfl
  unfold simFwd
  by_cases h0 : wr + sr = 0
  · rw [if_pos h0]
    exact ⟨_, _, rfl, ⟨fun _ _ => rfl, by omega, by omega, by omega⟩⟩
  rw [if_neg h0]
  by_cases hs : sr = 0
  · rw [if_pos hs]
    obtain ⟨fr, r⟩ := hp
    obtain ⟨s', fr', e1, r1⟩ := gcAll_spec (tooOld now) (fun a e => (simFwdWeak q a e, false)) r
      ({ r := .weakDisabled } : Acc)
    simp only [e1, gcList_fold]
    refine ⟨_, _, rfl, ⟨by omega, fun _ _ => ?_, by omega, by omega⟩⟩
    rw [simFwdWeak_fold]
    have : ((vals P).filter fun e => !tooOld now e).any (fun e => q.inSim e && q.weak e) = true ↔
        ∃ e ∈ vals P, LiveIn q now e ∧ q.weak e = true := by
      rw [List.any_eq_true]
      constructor
      · rintro ⟨e, h1, h2⟩
        rw [List.mem_filter, live_iff] at h1
        rw [Bool.and_eq_true] at h2
        exact ⟨e, h1.1, ⟨h1.2, h2.1⟩, h2.2⟩
      · rintro ⟨e, h1, h2, h3⟩
        exact ⟨e, by rw [List.mem_filter, live_iff]; exact ⟨h1, h2.1⟩, by rw [Bool.and_eq_true]; exact ⟨h2.2, h3⟩⟩
    rw [← this]
    cases hb : ((vals P).filter fun e => !tooOld now e).any (fun e => q.inSim e && q.weak e) <;>
      simp [fires, Status.toNat]
  rw [if_neg hs]
  by_cases hw : wr = 0
  · rw [if_pos hw]
    obtain ⟨f, r⟩ := hn
    obtain ⟨n', f', e1, r1⟩ := gcAll_spec (tooOld now) (fun (a : Acc) e => if q.inSim e && q.strong e then
        ({ a with r := .strongNoWeak, results := a.results ++ [.strong none] }, true) else (a, false)) r
      ({ r := .noRequirement } : Acc)
    obtain ⟨v, w, _, h2, -, -⟩ := gcList_find (tooOld now) (fun e => q.inSim e && q.strong e)
      (fun (a : Acc) e => { a with r := .strongNoWeak, results := a.results ++ [.strong none] }) N
      ({ r := .noRequirement } : Acc)
    rw [h2] at e1
    have hff : ((N.map Prod.snd).filter fun e => !tooOld now e).find? (fun e => q.inSim e && q.strong e) =
        (vals N).find? fun e => !tooOld now e && (q.inSim e && q.strong e) := by
      rw [List.find?_filter]
      congr 1; funext e
      cases tooOld now e <;> simp
    rw [hff] at e1
    simp only [e1]
    refine ⟨_, _, rfl, ⟨by omega, by omega, fun _ _ => ?_, by omega⟩⟩
    rw [← find_isSome_iff now (fun e => q.inSim e && q.strong e) q.inSim _ hu q.strong (fun _ => rfl)]
    cases (vals N).find? fun e => !tooOld now e && (q.inSim e && q.strong e) <;>
      simp [fires, Status.toNat]
  rw [if_neg hw]
  obtain ⟨a, n', e1, h1, h2, _⟩ := first_strong now (fun e => q.inSim e && q.strong e) .weakDisabled
    (fun a e => { a with r := .strongNoWeak, first := some e }) (fun _ _ => ⟨rfl, rfl⟩) hn
  simp only [e1]
  obtain ⟨fp, rp⟩ := hp
  obtain ⟨p', fp', ep, _⟩ := gcAll_spec (tooOld now) (fun a e => (simFwdBoth q a e, false)) rp a
  simp only [ep, gcList_fold]
  refine ⟨_, _, rfl, ⟨by omega, by omega, by omega, fun _ _ => ?_⟩⟩
  rw [fires_finish]
  refine both_gate now (simFwdBoth q) (fun e => q.inSim e && q.weak e) (fun e => q.inSim e && q.strong e)
    q.inSim q (wins q) _ _ hu (fun _ => rfl) (fun _ => rfl)
    (wins_iff' q) (fun a e => ?_) a (vals N) (vals P) (by rw [h2]; split <;> decide) ?_ h1
  · unfold simFwdBoth
    simp only [wins_eq]
    by_cases hwk : (q.inSim e && q.weak e) = true
    · simp only [hwk, if_true]
      cases hwin : wins q a.first e with
      | true => simp
      | false => by_cases hr : a.r = .weakEnabled <;> simp [hr]
    · simp only [Bool.not_eq_true] at hwk
      simp [hwk]
  · rw [h2]; split <;> rfl

/-- C43 for simulated backward chaining, where a weak requirement also prevails against a strong one
that is over when it begins. -/
theorem C43_simulated_bwd (q : Query) (now wr sr : Nat) (hp : Holds pos P) (hn : Holds neg N) :
    ∃ a c', simBwd q now wr sr ⟨pos, neg⟩ = some (a, c') ∧
      Gate (LiveIn q now) q (fun e s => Beats q e s ∨ s.bef ≤ e.aft) wr sr (vals P) (vals N) (fires a.r) := by
  have hu : ∀ e, LiveIn q now e ↔ Live now e ∧ q.inSim e = true := fun _ => Iff.rfl
  unfold simBwd
  by_cases h0 : wr + sr = 0
  · rw [if_pos h0]
    exact ⟨_, _, rfl, ⟨fun _ _ => rfl, by omega, by omega, by omega⟩⟩
  rw [if_neg h0]
  by_cases hs : sr = 0
  · rw [if_pos hs]
    obtain ⟨a, p', e1, h1, _, h2, _⟩ := first_weak now (fun e => q.inSim e && q.weak e) hp
    simp only [e1]
    refine ⟨a, _, rfl, ⟨by omega, fun _ _ => ?_, by omega, by omega⟩⟩
    rw [h2, ← find_isSome_iff now (fun e => q.inSim e && q.weak e) q.inSim _ hu q.weak (fun _ => rfl)]
    cases (vals P).find? fun e => !tooOld now e && (q.inSim e && q.weak e) <;> simp [fires, Status.toNat]
  rw [if_neg hs]
  by_cases hw : wr = 0
  · rw [if_pos hw]
    obtain ⟨a, n', e1, h1, h2, _⟩ := first_strong now (fun e => q.inSim e && q.strong e) .noRequirement
      (fun a e => { a with r := .strongNoWeak, loaded := some e, first := some e }) (fun _ _ => ⟨rfl, rfl⟩) hn
    simp only [e1]
    refine ⟨a, _, rfl, ⟨by omega, by omega, fun _ _ => ?_, by omega⟩⟩
    rw [h2, fires_strong _ _ (Or.inr rfl),
      ← find_isSome_iff now (fun e => q.inSim e && q.strong e) q.inSim _ hu q.strong (fun _ => rfl)]
    simp
  rw [if_neg hw]
  obtain ⟨a, n', e1, h1, h2, _⟩ := first_strong now (fun e => q.inSim e && q.strong e) .weakDisabled
    (fun a e => { a with r := .strongNoWeak, first := some e }) (fun _ _ => ⟨rfl, rfl⟩) hn
  simp only [e1]
  obtain ⟨fp, rp⟩ := hp
  obtain ⟨p', fp', ep, _⟩ := gcAll_spec (tooOld now) (fun a e => (simBwdBoth q a e, false)) rp a
  simp only [ep, gcList_fold]
  refine ⟨_, _, rfl, ⟨by omega, by omega, by omega, fun _ _ => ?_⟩⟩
  have hfin : ∀ b : Acc, (if b.r = .strongNoWeak ∨ b.r = .strongDisabledWeak then
      { b with loaded := b.first } else b).r = b.r := by intro b; split <;> rfl
  rw [hfin]
  refine both_gate now (simBwdBoth q) (fun e => q.inSim e && q.weak e) (fun e => q.inSim e && q.strong e)
    q.inSim q (fun f e => wins q f e || (match f with | some s => decide (s.bef ≤ e.aft) | none => false))
    _ _ hu (fun _ => rfl) (fun _ => rfl)
    (fun f e => ?_) (fun a e => ?_) a (vals N) (vals P) (by rw [h2]; split <;> decide) ?_ h1
  · cases f <;> simp [wins, Beats]
  · unfold simBwdBoth
    simp only [wins_eq]
    have hov : (match a.first with | some s => decide (s.bef ≤ e.aft) | none => false) = a.over e := by
      unfold Acc.over; cases a.first <;> rfl
    rw [hov]
    by_cases hwk : (q.inSim e && q.weak e) = true
    · simp only [hwk, if_true]
      cases hwin : (wins q a.first e || a.over e) with
      | true => by_cases hr : a.r = .weakEnabled <;> simp [hr]
      | false =>
        by_cases hb : a.begun e = true
        · by_cases hr : a.r = .weakEnabled <;> simp [hb, hr]
        · simp [hb]
    · simp only [Bool.not_eq_true] at hwk
      simp [hwk]
  · rw [h2]; split <;> rfl

/-! ## C44 -/

/-- What remains of a cache after a loop over all of it. -/
abbrev kept (now : Nat) (u : List (Nat × Entry)) : List (Nat × Entry) := u.filter fun e => !tooOld now e.2

theorem kept_iff (now : Nat) (u : List (Nat × Entry)) (e : Nat × Entry) :
    e ∈ kept now u ↔ e ∈ u ∧ Live now e.2 := by
  rw [List.mem_filter, live_iff]

/-- C44 as stated, for forward chaining, which visits all of the caches it consults. -/
def C44_full : Prop :=
  ∀ (q : Query) (now wr sr : Nat) (pos neg : St Entry) (P N : List (Nat × Entry)), Holds pos P → Holds neg N →
    ∃ fuel a c', fwd q now wr sr fuel ⟨pos, neg⟩ = some (a, c') ∧
      Holds c'.pos (if wr = 0 then P else kept now P) ∧ Holds c'.neg (if sr = 0 then N else kept now N)

/-- C44, forward (missing: a model with strong requirements only, one of which has expired): the caches
lose exactly the expired entries, and the order and positions of the others are unchanged. -/
theorem C44_fwd_partial (q : Query) (now wr sr fuel : Nat) (hp : Holds pos P) (hn : Holds neg N)
    (hexp : wr = 0 → sr ≠ 0 → ∀ e ∈ vals N, Live now e) (hfuel : N.length ≤ fuel) :
    ∃ a c', fwd q now wr sr fuel ⟨pos, neg⟩ = some (a, c') ∧
      Holds c'.pos (if wr = 0 then P else kept now P) ∧ Holds c'.neg (if sr = 0 then N else kept now N) := by
  unfold fwd
  by_cases h0 : wr + sr = 0
  · rw [if_pos h0, if_pos (by omega), if_pos (by omega)]
    exact ⟨_, _, rfl, hp, hn⟩
  rw [if_neg h0]
  by_cases hs : sr = 0
  · rw [if_pos hs, if_neg (by omega : ¬ wr = 0), if_pos hs]
    obtain ⟨fr, r⟩ := hp
    obtain ⟨s', fr', e1, r1⟩ := gcAll_spec (tooOld now) (fun a e => (fwdWeak q now a e, false)) r
      ({ r := .weakDisabled } : Acc)
    rw [e1, gcList_fold]
    rw [gcList_fold] at r1
    exact ⟨_, _, rfl, ⟨fr', r1⟩, hn⟩
  rw [if_neg hs]
  by_cases hw : wr = 0
  · rw [if_pos hw, if_pos hw, if_neg hs]
    have hlive := hexp hw hs
    obtain ⟨fr, r⟩ := id hn
    simp only [r.hhead]
    rw [strongOnly_spec q now pos N neg [] fuel _ hfuel hn
      (fun e he => by have := live_iff.2 (hlive e he); simpa using this)]
    refine ⟨_, _, rfl, hp, ?_⟩
    have : kept now N = N := List.filter_eq_self.2 fun e he =>
      live_iff.2 (hlive e.2 (List.mem_map_of_mem he))
    rw [this]; exact hn
  rw [if_neg hw, if_neg hw, if_neg hs]
  obtain ⟨fn, rn⟩ := hn
  obtain ⟨fp, rp⟩ := hp
  obtain ⟨n', fn', en, rn'⟩ := gcAll_spec (tooOld now) (fun a e => (fwdStrong q now .weakDisabled a e, false)) rn
    ({ r := .weakDisabled } : Acc)
  rw [gcList_fold] at rn'
  simp only [en, gcList_fold]
  obtain ⟨p', fp', ep, rp'⟩ := gcAll_spec (tooOld now) (fun a e => (fwdBoth q now a e, false)) rp
    (List.foldl (fwdStrong q now .weakDisabled) { r := .weakDisabled }
      ((N.map Prod.snd).filter fun e => !tooOld now e))
  rw [gcList_fold] at rp'
  simp only [ep, gcList_fold]
  exact ⟨_, _, rfl, ⟨fp', rp'⟩, fn', rn'⟩

/-- `u'` is `u` without the expired entries of a prefix, the part that was visited. -/
def Visited (now : Nat) (u u' : List (Nat × Entry)) : Prop := ∃ v w, u = v ++ w ∧ u' = kept now v ++ w

theorem visited_none (now : Nat) (u : List (Nat × Entry)) : Visited now u u := ⟨[], u, rfl, rfl⟩
theorem visited_all (now : Nat) (u : List (Nat × Entry)) : Visited now u (kept now u) :=
  ⟨u, [], by simp, by simp⟩

/-- C44 for the other three functions, which may stop early: the caches lose exactly the expired
entries of the part visited. -/
theorem C44_others (q : Query) (now wr sr : Nat) (hp : Holds pos P) (hn : Holds neg N) :
    (∃ a c', bwd q now wr sr ⟨pos, neg⟩ = some (a, c') ∧ ∃ P' N', Holds c'.pos P' ∧ Holds c'.neg N' ∧
      Visited now P P' ∧ Visited now N N') ∧
    (∃ a c', simFwd q now wr sr ⟨pos, neg⟩ = some (a, c') ∧ ∃ P' N', Holds c'.pos P' ∧ Holds c'.neg N' ∧
      Visited now P P' ∧ Visited now N N') ∧
    (∃ a c', simBwd q now wr sr ⟨pos, neg⟩ = some (a, c') ∧ ∃ P' N', Holds c'.pos P' ∧ Holds c'.neg N' ∧
      Visited now P P' ∧ Visited now N N') := by
  have hall : ∀ (v : Acc → Entry → Acc) (x : Acc), ∃ y p', gcAll (tooOld now) (fun a e => (v a e, false)) pos x =
      some (y, false, p') ∧ Holds p' (kept now P) := by
    intro v x
    obtain ⟨fp, rp⟩ := hp
    obtain ⟨p', fp', ep, rp'⟩ := gcAll_spec (tooOld now) (fun a e => (v a e, false)) rp x
    rw [gcList_fold] at ep rp'
    exact ⟨_, p', ep, fp', rp'⟩
  have hfind : ∀ (sel : Entry → Bool) (g : Acc → Entry → Acc) (x : Acc) (s : St Entry) (u : List (Nat × Entry)),
      Holds s u → ∃ y b s' u', gcAll (tooOld now) (fun a e => if sel e then (g a e, true) else (a, false)) s x =
        some (y, b, s') ∧ Holds s' u' ∧ Visited now u u' := by
    intro sel g x s u hh
    obtain ⟨f, r⟩ := hh
    obtain ⟨s', f', e1, r1⟩ := gcAll_spec (tooOld now) (fun a e => if sel e then (g a e, true) else (a, false)) r x
    obtain ⟨v, w, h1, h2, -, -⟩ := gcList_find (tooOld now) sel g u x
    rw [h2] at e1 r1
    exact ⟨_, _, s', _, e1, ⟨f', r1⟩, v, w, h1, rfl⟩
  refine ⟨?_, ?_, ?_⟩
  · unfold bwd
    by_cases h0 : wr + sr = 0
    · rw [if_pos h0]; exact ⟨_, _, rfl, P, N, hp, hn, visited_none _ _, visited_none _ _⟩
    rw [if_neg h0]
    by_cases hs : sr = 0
    · rw [if_pos hs]
      obtain ⟨y, b, s', u', e1, h1, h2⟩ := hfind q.weak
        (fun a e => { a with r := .weakEnabled, loaded := some e, ground := some e }) { r := .weakDisabled } pos P hp
      simp only [e1]
      exact ⟨_, _, rfl, u', N, h1, hn, h2, visited_none _ _⟩
    rw [if_neg hs]
    by_cases hw : wr = 0
    · rw [if_pos hw]
      obtain ⟨y, b, s', u', e1, h1, h2⟩ := hfind q.strong
        (fun a e => { a with r := .strongNoWeak, first := some e }) { r := .noRequirement } neg N hn
      simp only [e1]
      exact ⟨_, _, rfl, P, u', hp, h1, visited_none _ _, h2⟩
    rw [if_neg hw]
    obtain ⟨y, b, s', u', e1, h1, h2⟩ := hfind q.strong
      (fun a e => { a with r := .strongNoWeak, first := some e }) { r := .weakDisabled } neg N hn
    obtain ⟨z, p', e2, h3⟩ := hall (bwdBoth q) y
    simp only [e1, e2]
    exact ⟨_, _, rfl, _, u', h3, h1, visited_all _ _, h2⟩
  · unfold simFwd
    by_cases h0 : wr + sr = 0
    · rw [if_pos h0]; exact ⟨_, _, rfl, P, N, hp, hn, visited_none _ _, visited_none _ _⟩
    rw [if_neg h0]
    by_cases hs : sr = 0
    · rw [if_pos hs]
      obtain ⟨z, p', e2, h3⟩ := hall (simFwdWeak q) { r := .weakDisabled }
      simp only [e2]
      exact ⟨_, _, rfl, _, N, h3, hn, visited_all _ _, visited_none _ _⟩
    rw [if_neg hs]
    by_cases hw : wr = 0
    · rw [if_pos hw]
      obtain ⟨y, b, s', u', e1, h1, h2⟩ := hfind (fun e => q.inSim e && q.strong e)
        (fun a e => { a with r := .strongNoWeak, results := a.results ++ [.strong none] }) { r := .noRequirement }
        neg N hn
      simp only [e1]
      exact ⟨_, _, rfl, P, u', hp, h1, visited_none _ _, h2⟩
    rw [if_neg hw]
    obtain ⟨y, b, s', u', e1, h1, h2⟩ := hfind (fun e => q.inSim e && q.strong e)
      (fun a e => { a with r := .strongNoWeak, first := some e }) { r := .weakDisabled } neg N hn
    obtain ⟨z, p', e2, h3⟩ := hall (simFwdBoth q) y
    simp only [e1, e2]
    exact ⟨_, _, rfl, _, u', h3, h1, visited_all _ _, h2⟩
  · unfold simBwd
    by_cases h0 : wr + sr = 0
    · rw [if_pos h0]; exact ⟨_, _, rfl, P, N, hp, hn, visited_none _ _, visited_none _ _⟩
    rw [if_neg h0]
    by_cases hs : sr = 0
    · rw [if_pos hs]
      obtain ⟨y, b, s', u', e1, h1, h2⟩ := hfind (fun e => q.inSim e && q.weak e)
        (fun a e => { a with r := .weakEnabled, loaded := some e, ground := some e }) { r := .weakDisabled } pos P hp
      simp only [e1]
      exact ⟨_, _, rfl, u', N, h1, hn, h2, visited_none _ _⟩
    rw [if_neg hs]
    by_cases hw : wr = 0
    · rw [if_pos hw]
      obtain ⟨y, b, s', u', e1, h1, h2⟩ := hfind (fun e => q.inSim e && q.strong e)
        (fun a e => { a with r := .strongNoWeak, loaded := some e, first := some e }) { r := .noRequirement }
        neg N hn
      simp only [e1]
      exact ⟨_, _, rfl, P, u', hp, h1, visited_none _ _, h2⟩
    rw [if_neg hw]
    obtain ⟨y, b, s', u', e1, h1, h2⟩ := hfind (fun e => q.inSim e && q.strong e)
      (fun a e => { a with r := .strongNoWeak, first := some e }) { r := .weakDisabled } neg N hn
    obtain ⟨z, p', e2, h3⟩ := hall (simBwdBoth q) y
    simp only [e1, e2]
    exact ⟨_, _, rfl, _, u', h3, h1, visited_all _ _, h2⟩

/-- Storing a requirement drops the expired ones and puts the new one first. -/
theorem C44_store (now : Nat) (e : Entry) (hp : Holds pos P) :
    ∃ s' i, storeReq now pos e = some s' ∧ Holds s' ((i, e) :: kept now P) := by
  obtain ⟨fp, rp⟩ := hp
  obtain ⟨p', fp', ep, rp'⟩ := gcAll_spec (tooOld now) (fun (a : Unit) (_ : Entry) => (a, false)) rp ()
  have := gcList_fold (tooOld now) (fun (a : Unit) (_ : Entry) => a) P ()
  rw [this] at rp'
  obtain ⟨i, s', f', h1, _, h3, _⟩ := pushFront_spec rp' e
  exact ⟨s', i, by unfold storeReq; rw [ep]; exact h1, f', h3⟩

end

/-! ## What fails -/

/-- A list of one element, as made by `push_front` on the empty list. -/
def one (e : Entry) : St Entry :=
  ⟨1, fun j => if j = 0 then some ⟨none, none, e⟩ else none, some 0, some 0, none, 1, 0⟩

theorem one_eq (e : Entry) : pushFront empty e = some (one e) := rfl
theorem holds_one (e : Entry) : Holds (one e) [(0, e)] :=
  ⟨[], by constructor <;> simp [one, Seg, FSeg, keys, hd, lst]⟩
theorem holds_empty : Holds empty [] := ⟨[], rep_empty⟩

def expired : Entry := { id := 1, inv := false, aft := 0, bef := 5, cfd := 1, ctrl := 0, allowed := true }
def active : Entry := { id := 2, inv := false, aft := 0, bef := 20, cfd := 1, ctrl := 0, allowed := true }
def anyMatch : Query := ⟨fun _ => true, fun _ => true, fun _ _ => true, fun _ => true⟩

theorem fwd_expired (fuel : Nat) (pos : St Entry) (h : pos.cell 0 = none) :
    fwd anyMatch 10 0 1 fuel ⟨pos, one expired⟩ = none := by
  have h1 : (one expired).head = some 0 := rfl
  simp only [fwd, Nat.zero_add, Nat.one_ne_zero, if_false, if_true, h1]
  cases fuel with
  | zero => rfl
  | succ fuel =>
    have h2 : (one expired).cell 0 = some ⟨none, none, expired⟩ := rfl
    have h3 : tooOld 10 expired = true := by decide
    simp only [fwdStrongOnly, if_true, h2, h3, eraseNext, rd, h, Option.bind]
    rfl

/-- C43 and C44 fail for a model that has strong requirements only, as soon as one has expired: the
loop erases, in the cache of weak requirements, the cell with the same number (line 827). If there is no
such cell, that is undefined behaviour; if there is, an unrelated requirement is lost, the expired one
stays, and the remaining weak requirements are taken for strong ones. -/
theorem C44_fwd_violated : ¬ C44_full ∧ ¬ C43_full ∧
    (∀ fuel, fwd anyMatch 10 0 1 fuel ⟨empty, one expired⟩ = none) ∧
    (∃ c', fwd anyMatch 10 0 1 2 ⟨one active, one expired⟩ = some ({ r := .noRequirement }, c') ∧
      Holds c'.pos [] ∧ Holds c'.neg [(0, expired)] ∧ Live 10 active ∧ ¬ Live 10 expired) := by
  refine ⟨fun h => ?_, fun h => ?_, fun fuel => fwd_expired fuel _ rfl, ?_⟩
  · obtain ⟨fuel, a, c', h1, _⟩ := h anyMatch 10 0 1 empty (one expired) [] _ holds_empty (holds_one expired)
    rw [fwd_expired fuel _ rfl] at h1; cases h1
  · obtain ⟨fuel, a, c', h1, _⟩ := h anyMatch 10 0 1 empty (one expired) [] _ holds_empty (holds_one expired)
    rw [fwd_expired fuel _ rfl] at h1; cases h1
  · refine ⟨⟨_, _⟩, rfl, ?_, holds_one expired, ?_, ?_⟩
    · refine ⟨[0], ?_⟩
      constructor <;> simp [one, Seg, FSeg, keys, hd, lst, wr]
    · exact live_iff.1 (by decide)
    · intro h; exact absurd (live_iff.2 h) (by decide)

def lesser : Entry := { id := 3, inv := false, aft := 0, bef := 20, cfd := 0, ctrl := 0, allowed := true }
/-- Two weak entries: the first contradicted by the strong one but more confident, the second not
contradicted. -/
def twoWeak : Query := ⟨fun _ => true, fun e => e.id == 3, fun e _ => e.id == 1, fun _ => true⟩

/-- `wr_enabled` is documented as "true if there is at least one wr stronger than at least one sr"
(mdl_controller.cpp:754). The weak requirement met last decides: here the first one is stronger than
the strong requirement and enables the model, but the answer is false. -/
theorem C43_wr_enabled_violated (a0 : Acc) (h0 : a0.first = some lesser) :
    let w1 := { active with id := 1 }
    let a1 := fwdBoth twoWeak 10 a0 w1
    let a2 := fwdBoth twoWeak 10 a1 active
    twoWeak.contra w1 lesser = true ∧ lesser.cfd < w1.cfd ∧ a1.r = .weakEnabled ∧ a1.wrEnabled = true ∧
      a2.wrEnabled = false := by
  have hc : ((0 : Rat) < 1) := by decide
  simp [fwdBoth, outOfRange, twoWeak, Acc.contradicted, Acc.negCfd, h0, lesser, active, hc]

/-- The hypotheses are met: a model with one active strong requirement does not fire, whereas with a
more confident weak one it does. -/
theorem C43_nonvacuous :
    (∃ c', fwd anyMatch 10 0 1 1 ⟨empty, one active⟩ = some ({ r := .strongNoWeak, strong := [active], first := some active }, c')) ∧
    (∃ a c', fwd anyMatch 10 1 1 1 ⟨one active, one lesser⟩ = some (a, c') ∧ fires a.r = true ∧ a.wrEnabled = true) := by
  refine ⟨⟨_, rfl⟩, _, _, rfl, ?_, ?_⟩
  · decide
  · decide

end Verif.Requirements
