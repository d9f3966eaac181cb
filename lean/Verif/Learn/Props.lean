import Verif.Learn.Lemmas
import Mathlib.Data.List.Nodup
/-!
# C133 to C136: learning from changes, successes and failures
-/
namespace Verif.Learn
open Verif.Extract (World Inp Inst Fct Comp Meanwhile)
open Verif.ModelBase (Base Has)

/-! ## Loops over inputs -/

/-- `f` was looked at when a state was made in one of the attempts. -/
def Hits (E : Env) (st0 : St) (key : Try → Nat) (us : List Try) (f : Nat) : Prop :=
  ∃ t ∈ us, t.new ≠ [] ∧ (f = key t ∨ Meanwhile st0.W E.tol (key t) f) ∧ (Flat st0 → f ∈ t.new)

theorem Hits.mono {E : Env} {st0 : St} {key : Try → Nat} {us ts : List Try} {f : Nat} (h : Hits E st0 key us f) : Hits E st0 key (us ++ ts) f := by
  obtain ⟨t, ht, h⟩ := h
  exact ⟨t, by simp [ht], h⟩

/-- After `j` of the inputs of `st0`; `rest` are those still there. -/
structure Inv (E : Env) (S : Sigs) (key : Try → Nat) (Cand : Inp → Prop) (st0 : St) (rest : List Inp) (j : Nat) (us : List Try) (st : St) : Prop where
  next : st0.next ≤ st.next
  same : ∀ f, f < st0.next → st.W f = st0.W f
  made : ∀ f ∈ st.made, f < st.next ∧ ∃ s, (st.W f).inst = some s ∧ s.parts = []
  low : Low st
  sane : Sane st0 → Sane st
  inputs : ∃ e, st.inputs = mask e rest ∧ ∀ f ∈ rest.map Inp.fact, e f = false → Hits E st0 key us f
  sub : ∀ i ∈ rest, i ∈ st0.inputs
  adds : S.Distinct → Adds st0.base st.base (all us)
  good : ∀ t ∈ us, Good S st0.next st.base t
  sound : ∀ t ∈ us, ∃ i ∈ st0.inputs, i.fact = t.cause ∧ Cand i
  full : ∀ i ∈ st0.inputs.take j, Cand i → (∃ t ∈ us, t.cause = i.fact) ∨ Hits E st0 key us i.fact

section
variable {E : Env} {S : Sigs} {key : Try → Nat} {Cand : Inp → Prop} {st0 : St}

theorem Inv.start (hn : Numbered st0) : Inv E S key Cand st0 st0.inputs 0 [] st0 :=
  ⟨Nat.le_refl _, fun _ _ => rfl, by rw [hn.1]; simp, hn.2.2, id, ⟨fun _ => true, (mask_true _).symm, fun _ _ h => by cases h⟩,
    fun _ h => h, fun _ => .refl _, by simp, by simp, by simp⟩

theorem Inv.facts {rest : List Inp} {j : Nat} {us : List Try} {st : St} (h : Inv E S key Cand st0 rest j us st) :
    st.inputs.map Inp.fact = rest.map Inp.fact := by
  obtain ⟨e, he, -⟩ := h.inputs
  rw [he, mask_fact]

theorem Inv.old {rest : List Inp} {j : Nat} {us : List Try} {st : St} (h : Inv E S key Cand st0 rest j us st) (hn : Numbered st0) :
    ∀ f ∈ st.inputs.map Inp.fact, f < st0.next := by
  intro f hf
  rw [h.facts] at hf
  obtain ⟨i, hi, rfl⟩ := List.mem_map.1 hf
  exact hn.2.1 i (h.sub i hi)

theorem Inv.fit {rest : List Inp} {j : Nat} {us : List Try} {st : St} (h : Inv E S key Cand st0 rest j us st) (hn : Numbered st0) :
    Fit st0.next st := ⟨fun f hf => (h.made f hf).2, h.low, h.old hn⟩

theorem Inv.flat {rest : List Inp} {j : Nat} {us : List Try} {st : St} (h : Inv E S key Cand st0 rest j us st) (hn : Numbered st0)
    (hf : Flat st0) : Flat st := by
  intro i hi
  have : i.fact ∈ rest.map Inp.fact := h.facts ▸ List.mem_map.2 ⟨i, hi, rfl⟩
  obtain ⟨k, hk, hki⟩ := List.mem_map.1 this
  rw [← hki, h.same _ (hn.2.1 k (h.sub k hk))]
  exact hf k (h.sub k hk)

/-- One more input, `i`, of which `i'` is left. -/
theorem Inv.round {rest : List Inp} {j k : Nat} {us : List Try} {st st' : St} {i i' : Inp} {ts : List Try}
    (h : Inv E S key Cand st0 rest j us st) (hn : Numbered st0) (hj : st0.inputs[j]? = some i)
    (hr : Round E S st0.next key st i.fact ts st') (hkey : ∀ t ∈ ts, key t < st0.next)
    (hcand : ts ≠ [] → Cand i) (hall : Cand i → i'.eligible = true → ts ≠ [])
    (hi' : st.inputs[k]? = some i') (hf : i'.fact = i.fact) (hi : rest[k]? = some i) (helig : Cand i → i.eligible = true) :
    Inv E S key Cand st0 rest (j + 1) (us ++ ts) st' := by
  have hold := h.old hn
  obtain ⟨e, he, hhit⟩ := h.inputs
  have hitnew : ∀ f ∈ rest.map Inp.fact, (∃ t ∈ ts, t.new ≠ [] ∧ Hit E st (key t) t.new f) → Hits E st0 key (us ++ ts) f := by
    rintro f hf ⟨t, ht, h1, h2, h3⟩
    refine ⟨t, by simp [ht], h1, ?_, fun hfl => h3 (h.flat hn hfl)⟩
    have hlt : f < st0.next := hold f (h.facts ▸ hf)
    rcases h2 with h2 | h2
    · exact Or.inl h2
    · right
      unfold Meanwhile at h2 ⊢
      rw [h.same _ hlt, h.same _ (hkey t ht)] at h2
      exact h2
  refine ⟨Nat.le_trans h.next hr.step.next, fun f hf => ?_, ?_, hr.step.low h.low, fun hs => hr.step.sane (h.sane hs), ?_, h.sub, fun hd => ?_, ?_, ?_, ?_⟩
  · rw [hr.step.same f (Nat.lt_of_lt_of_le hf h.next), h.same f hf]
  · intro f hf
    rcases hr.step.made f hf with hf | ⟨-, h2, h3⟩
    · obtain ⟨h1, h2⟩ := h.made f hf
      exact ⟨Nat.lt_of_lt_of_le h1 hr.step.next, by rw [hr.step.same f h1]; exact h2⟩
    · exact ⟨h2, h3⟩
  · obtain ⟨e', he', hhit'⟩ := hr.step.inputs
    refine ⟨fun f => e f && e' f, by rw [he', he, mask_mask], fun f hf hx => ?_⟩
    rcases Bool.and_eq_false_iff.1 hx with hx | hx
    · exact (hhit f hf hx).mono
    · exact hitnew f hf (hhit' f hx)
  · rw [all_append]
    exact (h.adds hd).trans (hr.adds hd)
  · intro t ht
    rcases List.mem_append.1 ht with ht | ht
    · obtain ⟨h1, h2, h3⟩ := h.good t ht
      refine ⟨fun hs => ?_, h2, h3⟩
      exact hr.white _ (h1 hs)
    · exact hr.good t ht
  · intro t ht
    rcases List.mem_append.1 ht with ht | ht
    · exact h.sound t ht
    · exact ⟨i, List.mem_of_getElem? hj, (hr.cause t ht).symm, hcand (List.ne_nil_of_mem ht)⟩
  · intro x hx hc
    rw [List.take_succ, hj, Option.toList_some, List.mem_append] at hx
    rcases hx with hx | hx
    · rcases h.full x hx hc with ⟨t, ht, h1⟩ | h1
      · exact Or.inl ⟨t, by simp [ht], h1⟩
      · exact Or.inr h1.mono
    · rw [List.mem_singleton] at hx
      subst hx
      by_cases hts : ts = []
      · right
        have hne : i'.eligible = false := by
          rw [Bool.eq_false_iff]
          exact fun h => hall hc h hts
        rw [he, mask_get, hi, Option.map_some, Option.some.injEq] at hi'
        rw [← hi'] at hne
        simp only [helig hc, Bool.true_and] at hne
        exact (hhit _ (List.mem_map.2 ⟨x, List.mem_of_getElem? hi, rfl⟩) hne).mono
      · obtain ⟨t, ht⟩ := List.exists_mem_of_ne_nil _ hts
        exact Or.inl ⟨t, by simp [ht], hr.cause t ht⟩
end

/-- What is kept by all rounds, for totality. -/
structure Safe (n : Nat) (st : St) : Prop where
  sane : Sane st
  fit : Fit n st
  low : ∀ f ∈ st.made, f < st.next

theorem Safe.start {st : St} (hn : Numbered st) (hs : Sane st) : Safe st.next st :=
  ⟨hs, ⟨by rw [hn.1]; simp, hn.2.2, fun f hf => by
    obtain ⟨i, hi, rfl⟩ := List.mem_map.1 hf
    exact hn.2.1 i hi⟩, by rw [hn.1]; simp⟩

theorem Safe.step {n : Nat} {P : Nat → Prop} {st st' : St} (h : Safe n st) (hs : Step P st st') : Safe n st' := by
  have hm : ∀ f ∈ st'.made, f < st'.next ∧ ∃ s, (st'.W f).inst = some s ∧ s.parts = [] := by
    intro f hf
    rcases hs.made f hf with hf | ⟨-, h2, h3⟩
    · exact ⟨Nat.lt_of_lt_of_le (h.low f hf) hs.next, by rw [hs.same f (h.low f hf)]; exact h.fit.made f hf⟩
    · exact ⟨h2, h3⟩
  refine ⟨hs.sane h.sane, ⟨fun f hf => (hm f hf).2, hs.low h.fit.low, ?_⟩, fun f hf => (hm f hf).1⟩
  obtain ⟨e, he, -⟩ := hs.inputs
  rw [he, mask_fact]
  exact h.fit.inputs

theorem numbered_sub {st : St} (hn : Numbered st) (l : List Inp) (hl : ∀ i ∈ l, i ∈ st.inputs) : Numbered { st with inputs := l } :=
  ⟨hn.1, fun i hi => hn.2.1 i (hl i hi), hn.2.2⟩

/-! ## C133 -/

theorem change_cand (E : Env) (C : Change) (W : World) (i : Inp) :
    (C.keep E W i = true ∧ C.cause E W i = true) ↔ C.Candidate E W i := by
  unfold Change.keep Change.cause Change.Candidate synchronous
  cases hi : (W i.fact).inst with
  | some s => simp
  | none =>
    simp only [Bool.and_eq_true, Bool.not_eq_true', decide_eq_false_iff_not, Bool.or_eq_true, bne_iff_ne, Option.isNone_none, true_and, and_true, ge_iff_le]
    have h1 : (¬ ((W i.fact).after - (W C.target).after).natAbs < E.tol) ↔
        ¬ ((W i.fact).after - (W C.target).after < E.tol ∧ (W C.target).after - (W i.fact).after < E.tol) := by omega
    have h2 : ((if (C.needGuard && (!E.isImdl i.fact || !C.shares i.fact)) = true then C.law i.fact else true) = true) ↔
        (C.needGuard = true → (E.isImdl i.fact = false ∨ C.shares i.fact = false) → C.law i.fact = true) := by
      cases C.needGuard <;> cases E.isImdl i.fact <;> cases C.shares i.fact <;> simp
    have h3 : C.target ≠ i.fact ↔ i.fact ≠ C.target := ⟨Ne.symm, Ne.symm⟩
    rw [h1]
    simp only [Bool.and_eq_true, Bool.or_eq_true, Bool.not_eq_true'] at h2
    rw [h2, h3, Int.not_le]
    constructor
    · rintro ⟨⟨a, b⟩, ⟨⟨c, d⟩, e⟩, f⟩
      exact ⟨d, c, a, b, e, f⟩
    · rintro ⟨a, b, c, d, e, f⟩
      exact ⟨⟨c, d⟩, ⟨⟨b, a⟩, e⟩, f⟩

theorem change_cause_same {E : Env} {C : Change} {W W' : World} {i : Inp} (h1 : W' i.fact = W i.fact) (h2 : W' C.target = W C.target) :
    C.cause E W' i = C.cause E W i := by
  unfold Change.cause
  rw [h1, h2]

theorem change_reduce {E : Env} {S : Sigs} {C : Change} {st0 : St} (hn : Numbered st0) (ht : C.target < st0.next)
    (hk : ∀ i ∈ st0.inputs, C.keep E st0.W i = true) {ts : List Try} {st' : St}
    (h : each (C.round E S) st0.inputs.length 0 st0 = some (ts, st')) :
    Inv E S (fun _ => C.target) (C.Candidate E st0.W) st0 st0.inputs st0.inputs.length ts st' ∧
    (ts.map Try.cause).Sublist ((st0.inputs.filter fun i => decide (C.Candidate E st0.W i)).map Inp.fact) ∧
    ((∀ i ∈ st0.inputs, C.Candidate E st0.W i → ¬ Meanwhile st0.W E.tol C.target i.fact) →
      ts.map Try.cause = (st0.inputs.filter fun i => decide (C.Candidate E st0.W i)).map Inp.fact) := by
  have key := each_inv (f := C.round E S) (fun k us st => k ≤ st0.inputs.length ∧
      Inv E S (fun _ => C.target) (C.Candidate E st0.W) st0 st0.inputs k us st ∧
      (us.map Try.cause).Sublist (((st0.inputs.take k).filter fun i => decide (C.Candidate E st0.W i)).map Inp.fact) ∧
      ((∀ i ∈ st0.inputs, C.Candidate E st0.W i → ¬ Meanwhile st0.W E.tol C.target i.fact) →
        us.map Try.cause = ((st0.inputs.take k).filter fun i => decide (C.Candidate E st0.W i)).map Inp.fact))
    st0.inputs.length ?_ ?_ st0.inputs.length 0 [] st0 ts st' ⟨Nat.zero_le _, .start hn, by simp, by simp⟩ (by simp) h
  · rw [List.nil_append, List.take_length] at key
    exact key.2
  · rintro k us st ⟨-, hI, -⟩
    have := congrArg List.length hI.facts
    simpa using this
  · rintro k us st i' ts st' ⟨hk1, hI, hsub, heq⟩ hi' hround
    have hmem := List.mem_of_getElem? hi'
    obtain ⟨e, he, hhit⟩ := hI.inputs
    have hi'' := hi'
    rw [he, mask_get, Option.map_eq_some_iff] at hi''
    obtain ⟨i, hi, rfl⟩ := hi''
    obtain ⟨hR, hc⟩ := change_round (hI.fit hn) hmem hround
    have him := List.mem_of_getElem? hi
    have hlt : i.fact < st0.next := hn.2.1 i him
    have hcs : C.cause E st.W ⟨i.fact, i.eligible && e i.fact⟩ = (C.cause E st0.W i && e i.fact) := by
      rw [change_cause_same (W := st0.W) (i := ⟨i.fact, i.eligible && e i.fact⟩) (hI.same _ hlt) (hI.same _ ht)]
      unfold Change.cause
      dsimp only
      cases e i.fact <;> simp
    have hcand : C.cause E st0.W i = decide (C.Candidate E st0.W i) := by
      rw [Bool.eq_iff_iff, decide_eq_true_eq, ← change_cand]
      exact ⟨fun h => ⟨hk i him, h⟩, fun h => h.2⟩
    rw [hcs, hcand] at hc
    have htake : (st0.inputs.take (k + 1)).filter (fun i => decide (C.Candidate E st0.W i)) =
        (st0.inputs.take k).filter (fun i => decide (C.Candidate E st0.W i)) ++ (if decide (C.Candidate E st0.W i) then [i] else []) := by
      rw [List.take_succ, hi, Option.toList_some, List.filter_append]
      congr 1
      by_cases h : C.Candidate E st0.W i <;> simp [h]
    refine ⟨?_, ?_, ?_, ?_⟩
    · exact (List.getElem?_eq_some_iff.1 hi).1
    · refine hI.round hn hi hR (fun _ _ => ht) (fun hts => ?_) (fun hc' hel hts => ?_) hi' rfl hi (fun h => h.1)
      · by_contra hno
        rw [decide_eq_false hno] at hc
        simp at hc
        exact hts hc
      · rw [hts, decide_eq_true hc'] at hc
        simp only [hc'.1, Bool.true_and] at hel
        simp [hel] at hc
    · rw [List.map_append, htake, List.map_append, hc]
      refine hsub.append ?_
      by_cases h : C.Candidate E st0.W i
      · simp only [decide_eq_true h, Bool.true_and, if_true]
        split <;> simp
      · simp [h]
    · intro hno
      rw [List.map_append, htake, List.map_append, hc, heq hno]
      congr 1
      by_cases h : C.Candidate E st0.W i
      · have : e i.fact = true := by
          by_contra hne
          obtain ⟨t, -, -, h2, -⟩ := hhit i.fact (List.mem_map.2 ⟨i, him, rfl⟩) (by simpa using hne)
          rcases h2 with h2 | h2
          · exact h.2.1 h2
          · exact hno i him h h2
        simp [h, this]
      · simp [h]

theorem change_safe {E : Env} {S : Sigs} {C : Change} {n : Nat} {st : St} (h : Safe n st) (i : Inp) (hi : i ∈ st.inputs) :
    ∃ ts st', C.round E S st i = some (ts, st') ∧ Safe n st' := by
  have key : ∃ ts st', C.round E S st i = some (ts, st') := by
    unfold Change.round
    split_ifs
    · exact ⟨_, _, rfl⟩
    · obtain ⟨r, hr⟩ := find_total E i.fact false st h.sane
      obtain ⟨q, new, st1, hq⟩ := findOrMake_total E C.target false st h.sane
      rw [hr, Option.bind_some]
      unfold Change.requirement
      rw [hq]
      cases q <;> exact ⟨_, _, rfl⟩
  obtain ⟨ts, st', hts⟩ := key
  exact ⟨ts, st', hts, h.step (change_round h.fit hi hts).1.step⟩

/-- C133 in part: only facts that may be the cause are tried, in order and each at most once; each one is tried, unless it holds when
the old observation starts to; and nothing undefined happens. Missing: those that do hold then, which are no longer
tried once a state was made of what holds then. -/
theorem C133_causes_partial (E : Env) (S : Sigs) (C : Change) (st : St) (hn : Numbered st) (ht : C.target < st.next) :
    (Sane st → ∃ ts st', C.reduce E S st = some (ts, st')) ∧
    ∀ ts st', C.reduce E S st = some (ts, st') →
      (ts.map Try.cause).Sublist ((st.inputs.filter fun i => decide (C.Candidate E st.W i)).map Inp.fact) ∧
      ((∀ i ∈ st.inputs, C.Candidate E st.W i → ¬ Meanwhile st.W E.tol C.target i.fact) →
        ts.map Try.cause = (st.inputs.filter fun i => decide (C.Candidate E st.W i)).map Inp.fact) ∧
      ∀ i ∈ st.inputs, C.Candidate E st.W i → (∃ t ∈ ts, t.cause = i.fact) ∨
        (Meanwhile st.W E.tol C.target i.fact ∧ ∃ t ∈ ts, t.new ≠ []) := by
  have hsub : ∀ i ∈ st.inputs.filter (C.keep E st.W), i ∈ st.inputs := fun i hi => (List.mem_filter.1 hi).1
  have hn' := numbered_sub hn _ hsub
  refine ⟨fun hs => ?_, fun ts st' h => ?_⟩
  · unfold Change.reduce
    refine each_total (Safe st.next) (fun st i h hi => change_safe h i hi) _ _ _ (Safe.start hn' ⟨?_, hs.2⟩)
    exact hs.1.sublist (List.filter_sublist.map _)
  · have hff : (st.inputs.filter (C.keep E st.W)).filter (fun i => decide (C.Candidate E st.W i)) =
        st.inputs.filter fun i => decide (C.Candidate E st.W i) := by
      rw [List.filter_filter]
      apply List.filter_congr
      intro i _
      rw [Bool.eq_iff_iff, Bool.and_eq_true, decide_eq_true_eq]
      exact ⟨fun h => h.1, fun h => ⟨h, ((change_cand E C st.W i).2 h).1⟩⟩
    obtain ⟨hI, h1, h2⟩ := change_reduce (st0 := { st with inputs := st.inputs.filter (C.keep E st.W) }) hn' ht
      (fun i hi => (List.mem_filter.1 hi).2) h
    dsimp only at h1 h2
    rw [hff] at h1 h2
    refine ⟨h1, fun hno => h2 fun i hi => hno i (hsub i hi), fun i hi hc => ?_⟩
    have hmem : i ∈ st.inputs.filter (C.keep E st.W) := List.mem_filter.2 ⟨hi, ((change_cand E C st.W i).2 hc).1⟩
    rcases hI.full i (by rw [List.take_length]; exact hmem) hc with h | ⟨t, ht, h3, h4, -⟩
    · exact Or.inl h
    · rcases h4 with h4 | h4
      · exact absurd h4 hc.2.1
      · exact Or.inr ⟨h4, t, ht, h3⟩

/-! ## C134 -/

theorem success_cand (E : Env) (C : Success) (W : World) (i : Inp) :
    (C.cause E W i = true ∧ (W i.fact).after < C.after) ↔ C.Candidate E W i := by
  unfold Success.cause Success.Candidate synchronous
  simp only [Bool.and_eq_true, Bool.not_eq_true', decide_eq_false_iff_not, Option.isNone_iff_eq_none]
  have h1 : (¬ ((W i.fact).after - C.since).natAbs < E.tol) ↔
      ¬ ((W i.fact).after - C.since < E.tol ∧ C.since - (W i.fact).after < E.tol) := by omega
  rw [h1]
  constructor
  · rintro ⟨⟨⟨a, b⟩, c⟩, d⟩
    exact ⟨b, a, d, c⟩
  · rintro ⟨b, a, d, c⟩
    exact ⟨⟨⟨a, b⟩, c⟩, d⟩

/-- The inputs left after `j`: those that started in time, and all later ones. -/
def Success.left (C : Success) (W : World) (is : List Inp) (j : Nat) : List Inp :=
  (is.take j).filter (fun i => decide ((W i.fact).after < C.after)) ++ is.drop j

theorem Success.left_get (C : Success) (W : World) (is : List Inp) (j : Nat) :
    (C.left W is j)[((is.take j).filter fun i => decide ((W i.fact).after < C.after)).length]? = is[j]? := by
  unfold Success.left
  rw [List.getElem?_append_right (Nat.le_refl _)]
  simp

theorem mask_eraseIdx (e : Nat → Bool) (is : List Inp) (k : Nat) : (mask e is).eraseIdx k = mask e (is.eraseIdx k) := by
  simp [mask, List.eraseIdx_map]

theorem Success.left_erase (C : Success) (W : World) (is : List Inp) (j : Nat) (i : Inp) (hi : is[j]? = some i)
    (hk : ¬ (W i.fact).after < C.after) :
    (C.left W is j).eraseIdx ((is.take j).filter fun i => decide ((W i.fact).after < C.after)).length = C.left W is (j + 1) ∧
    ((is.take (j + 1)).filter fun i => decide ((W i.fact).after < C.after)).length = ((is.take j).filter fun i => decide ((W i.fact).after < C.after)).length := by
  have hd : is.drop j = i :: is.drop (j + 1) := by
    obtain ⟨h1, h2⟩ := List.getElem?_eq_some_iff.1 hi
    rw [List.drop_eq_getElem_cons h1, h2]
  have ht : (is.take (j + 1)).filter (fun i => decide ((W i.fact).after < C.after)) = (is.take j).filter fun i => decide ((W i.fact).after < C.after) := by
    rw [List.take_succ, hi, Option.toList_some, List.filter_append]
    simp [hk]
  unfold Success.left
  rw [ht]
  refine ⟨?_, rfl⟩
  rw [List.eraseIdx_append_of_length_le (Nat.le_refl _), Nat.sub_self, hd]
  rfl

theorem Success.left_keep (C : Success) (W : World) (is : List Inp) (j : Nat) (i : Inp) (hi : is[j]? = some i)
    (hk : (W i.fact).after < C.after) :
    C.left W is (j + 1) = C.left W is j ∧
    ((is.take (j + 1)).filter fun i => decide ((W i.fact).after < C.after)).length = ((is.take j).filter fun i => decide ((W i.fact).after < C.after)).length + 1 := by
  have hd : is.drop j = i :: is.drop (j + 1) := by
    obtain ⟨h1, h2⟩ := List.getElem?_eq_some_iff.1 hi
    rw [List.drop_eq_getElem_cons h1, h2]
  have ht : (is.take (j + 1)).filter (fun i => decide ((W i.fact).after < C.after)) = (is.take j).filter (fun i => decide ((W i.fact).after < C.after)) ++ [i] := by
    rw [List.take_succ, hi, Option.toList_some, List.filter_append]
    simp [hk]
  unfold Success.left
  rw [ht, hd]
  simp

theorem Inv.erase {E : Env} {S : Sigs} {C : Success} {key : Try → Nat} {st0 : St} {j : Nat} {us : List Try} {st : St} {i : Inp}
    (h : Inv E S key (C.Candidate E st0.W) st0 (C.left st0.W st0.inputs j) j us st) (hi : st0.inputs[j]? = some i)
    (hk : ¬ (st0.W i.fact).after < C.after) :
    Inv E S key (C.Candidate E st0.W) st0 (C.left st0.W st0.inputs (j + 1)) (j + 1) us
      { st with inputs := st.inputs.eraseIdx ((st0.inputs.take j).filter fun i => decide ((st0.W i.fact).after < C.after)).length } := by
  obtain ⟨h1, -⟩ := C.left_erase st0.W st0.inputs j i hi hk
  have hmem : ∀ x ∈ C.left st0.W st0.inputs (j + 1), x ∈ C.left st0.W st0.inputs j := fun x hx => List.mem_of_mem_eraseIdx (h1 ▸ hx)
  refine ⟨h.next, h.same, h.made, h.low, fun hs => ?_, ?_, fun x hx => h.sub x (hmem x hx), h.adds, h.good, h.sound, ?_⟩
  · refine ⟨(h.sane hs).1.sublist ((List.eraseIdx_sublist _ _).map _), (h.sane hs).2⟩
  · obtain ⟨e, he, hh⟩ := h.inputs
    refine ⟨e, ?_, fun f hf => hh f ?_⟩
    · show st.inputs.eraseIdx _ = _
      rw [he, mask_eraseIdx, h1]
    · obtain ⟨x, hx, rfl⟩ := List.mem_map.1 hf
      exact List.mem_map.2 ⟨x, hmem x hx, rfl⟩
  · intro x hx hc
    rw [List.take_succ, hi, Option.toList_some, List.mem_append] at hx
    rcases hx with hx | hx
    · exact h.full x hx hc
    · rw [List.mem_singleton] at hx
      subst hx
      exact absurd hc.2.2.1 hk

theorem success_loop {E : Env} {S : Sigs} {C : Success} {st0 : St} (hn : Numbered st0) (n j : Nat) (us : List Try) (st : St)
    (ts : List Try) (st' : St)
    (hI : Inv E S Try.cause (C.Candidate E st0.W) st0 (C.left st0.W st0.inputs j) j us st) (hj : n + j = st0.inputs.length)
    (h : C.loop E S n ((st0.inputs.take j).filter fun i => decide ((st0.W i.fact).after < C.after)).length st = some (ts, st')) :
    Inv E S Try.cause (C.Candidate E st0.W) st0 (C.left st0.W st0.inputs st0.inputs.length) st0.inputs.length (us ++ ts) st' := by
  induction n generalizing j us st ts with
  | zero =>
    cases h
    rw [List.append_nil, ← hj, Nat.zero_add]
    simpa [← hj] using hI
  | succ n ih =>
    obtain ⟨i, hi⟩ : ∃ i, st0.inputs[j]? = some i := ⟨_, List.getElem?_eq_getElem (by omega)⟩
    obtain ⟨e, he, hhit⟩ := hI.inputs
    have hlt : i.fact < st0.next := hn.2.1 i (List.mem_of_getElem? hi)
    have hrest := C.left_get st0.W st0.inputs j
    have hget : st.inputs[((st0.inputs.take j).filter fun i => decide ((st0.W i.fact).after < C.after)).length]? =
        some ⟨i.fact, i.eligible && e i.fact⟩ := by
      rw [he, mask_get, hrest, hi]
      rfl
    unfold Success.loop at h
    rw [hget] at h
    dsimp only at h
    rw [hI.same _ hlt] at h
    by_cases hk : (st0.W i.fact).after < C.after
    · rw [if_neg (by omega)] at h
      obtain ⟨h1, h2⟩ := C.left_keep st0.W st0.inputs j i hi hk
      cases hr : C.round E S st ⟨i.fact, i.eligible && e i.fact⟩ with
      | none => rw [hr] at h; cases h
      | some x =>
        obtain ⟨t1, st1⟩ := x
        rw [hr] at h
        dsimp only at h
        cases hl : C.loop E S n (((st0.inputs.take j).filter fun i => decide ((st0.W i.fact).after < C.after)).length + 1) st1 with
        | none => rw [hl] at h; cases h
        | some y =>
          obtain ⟨t2, st2⟩ := y
          rw [hl] at h
          cases h
          rw [← List.append_assoc]
          obtain ⟨hR, hc⟩ := success_round (hI.fit hn) (List.mem_of_getElem? hget) hr
          have hcs : C.cause E st.W ⟨i.fact, i.eligible && e i.fact⟩ = (C.cause E st0.W i && e i.fact) := by
            unfold Success.cause
            dsimp only
            rw [hI.same _ hlt]
            cases e i.fact <;> simp
          rw [hcs] at hc
          refine ih (j + 1) (us ++ t1) st1 t2 ?_ (by omega) (by rw [h2]; exact hl)
          rw [h1]
          refine hI.round hn hi hR (fun t ht => by rw [hR.cause t ht]; exact hlt) (fun hts => ?_) (fun hc' hel hts => ?_) hget rfl (hrest.trans hi) (fun h => h.1)
          · refine (success_cand E C st0.W i).1 ⟨?_, hk⟩
            by_contra hno
            rw [Bool.not_eq_true] at hno
            rw [hno] at hc
            simp at hc
            exact hts hc
          · rw [hts, ((success_cand E C st0.W i).2 hc').1] at hc
            simp only [hc'.1, Bool.true_and] at hel
            simp [hel] at hc
    · rw [if_pos (by omega)] at h
      obtain ⟨h1, h2⟩ := C.left_erase st0.W st0.inputs j i hi hk
      exact ih (j + 1) us _ ts (hI.erase hi hk) (by omega) (by rw [h2]; exact h)

theorem success_safe {E : Env} {S : Sigs} {C : Success} (ha : C.anti = false) {n : Nat} {st : St} (h : Safe n st) (i : Inp) (hi : i ∈ st.inputs) :
    ∃ ts st', C.round E S st i = some (ts, st') ∧ Safe n st' := by
  have key : ∃ ts st', C.round E S st i = some (ts, st') := by
    unfold Success.round
    split_ifs
    · exact ⟨_, _, rfl⟩
    · obtain ⟨q, new, st1, hq⟩ := findOrMake_total E i.fact false st h.sane
      rw [hq]
      cases q with
      | nil =>
        dsimp only
        unfold Success.plain
        rw [ha]
        exact ⟨_, _, rfl⟩
      | cons => exact ⟨_, _, rfl⟩
  obtain ⟨ts, st', hts⟩ := key
  exact ⟨ts, st', hts, h.step (success_round h.fit hi hts).1.step⟩

theorem success_total {E : Env} {S : Sigs} {C : Success} (ha : C.anti = false) {m : Nat} (n k : Nat) (st : St) (h : Safe m st) :
    ∃ ts st', C.loop E S n k st = some (ts, st') := by
  induction n generalizing k st with
  | zero => exact ⟨_, _, rfl⟩
  | succ n ih =>
    unfold Success.loop
    cases hi : st.inputs[k]? with
    | none => exact ⟨_, _, rfl⟩
    | some i =>
      dsimp only
      split_ifs
      · refine ih k _ ⟨⟨?_, h.sane.2⟩, ⟨h.fit.made, h.fit.low, fun f hf => h.fit.inputs f ?_⟩, h.low⟩
        · exact h.sane.1.sublist ((List.eraseIdx_sublist _ _).map _)
        · exact ((List.eraseIdx_sublist st.inputs k).map Inp.fact).mem hf
      · obtain ⟨ts, st1, h1, h2⟩ := success_safe (E := E) (S := S) ha h i (List.mem_of_getElem? hi)
        obtain ⟨us, st2, h3⟩ := ih (k + 1) st1 h2
        simp only [h1, h3]
        exact ⟨_, _, rfl⟩

/-- C134 in part: if the evidence is no |fact, nothing undefined happens; only facts that may be the reason are tried;
each one is tried, or holds when one that was tried starts to, and is in its state if no input is an instance
of a state. Missing: |facts, whose state is lost and read nevertheless; instances among the inputs, because of which a fact
may be left out of the state (C83). -/
theorem C134_reasons_partial (E : Env) (S : Sigs) (C : Success) (st : St) (hn : Numbered st) :
    (Sane st → C.anti = false → ∃ ts st', C.reduce E S st = some (ts, st')) ∧
    ∀ ts st', C.reduce E S st = some (ts, st') →
      (C.predicted = true → ts = []) ∧
      (∀ t ∈ ts, ∃ i ∈ st.inputs, i.fact = t.cause ∧ C.Candidate E st.W i) ∧
      (C.predicted = false → ∀ i ∈ st.inputs, C.Candidate E st.W i →
        (∃ t ∈ ts, t.cause = i.fact ∨ (t.new ≠ [] ∧ Meanwhile st.W E.tol t.cause i.fact)) ∧
        ((∀ i ∈ st.inputs, (st.W i.fact).inst = none) → Covered st.W ts i.fact)) := by
  refine ⟨fun hs ha => ?_, fun ts st' h => ?_⟩
  · unfold Success.reduce
    split_ifs
    · exact ⟨_, _, rfl⟩
    · exact success_total ha _ _ _ (Safe.start hn hs)
  · unfold Success.reduce at h
    cases hp : C.predicted with
    | true =>
      rw [hp, if_pos rfl] at h
      cases h
      exact ⟨fun _ => rfl, by simp, by simp⟩
    | false =>
      rw [hp, if_neg (by simp)] at h
      have hI := success_loop (E := E) (S := S) (C := C) hn st.inputs.length 0 [] st ts st' (by
        have := Inv.start (E := E) (S := S) (key := Try.cause) (Cand := C.Candidate E st.W) hn
        simpa [Success.left] using this) (by simp) h
      rw [List.nil_append] at hI
      refine ⟨by simp, hI.sound, fun _ i hi hc => ?_⟩
      rcases hI.full i (by rw [List.take_length]; exact hi) hc with ⟨t, ht, h1⟩ | ⟨t, ht, h1, h2, h3⟩
      · exact ⟨⟨t, ht, Or.inl h1⟩, fun _ => ⟨t, ht, Or.inl h1⟩⟩
      · refine ⟨⟨t, ht, ?_⟩, fun hfl => ⟨t, ht, Or.inr (Or.inl (h3 hfl))⟩⟩
        rcases h2 with h2 | h2
        · exact Or.inl h2.symm
        · exact Or.inr ⟨h1, h2⟩

/-! ## C135 -/

theorem failure_mem (E : Env) (C : Failure) (W : World) (is : List Inp) (i : Inp) :
    (i ∈ C.filter E W is ∧ (W i.fact).inst = none ∧ i.eligible = true) ↔ i ∈ is ∧ C.Candidate E W is i := by
  unfold Failure.filter Failure.Candidate Failure.Concerns
  simp only [List.mem_append, List.mem_filter, List.any_eq_true, List.mem_map, Failure.direct, Failure.aside, Bool.and_eq_true,
    Bool.not_eq_true', decide_eq_false_iff_not]
  constructor
  · rintro ⟨(⟨h1, ⟨h2, h3⟩, h4⟩ | ⟨⟨⟨h1, ⟨h2, h3⟩, h4⟩, h5⟩, ⟨f, ⟨j, ⟨⟨h6, ⟨h7, h8⟩, h9⟩, h10⟩, rfl⟩, h11⟩⟩) | ⟨⟨-, -, h⟩, -⟩, hi, he⟩
    · exact ⟨h1, he, hi, Or.inl ⟨h2, by omega, h4⟩⟩
    · exact ⟨h1, he, hi, Or.inr ⟨h2, by omega, h5, j, h6, ⟨h7, by omega, h9⟩, h10, h11⟩⟩
    · rw [hi] at h
      cases h
  · rintro ⟨h1, he, hi, ⟨h2, h3, h4⟩ | ⟨h2, h3, h5, j, h6, ⟨h7, h8, h9⟩, h10, h11⟩⟩
    · exact ⟨Or.inl (Or.inl ⟨h1, ⟨h2, by omega⟩, h4⟩), hi, he⟩
    · refine ⟨?_, hi, he⟩
      cases hsh : C.shares i.fact with
      | true => exact Or.inl (Or.inl ⟨h1, ⟨h2, by omega⟩, rfl⟩)
      | false => exact Or.inl (Or.inr ⟨⟨⟨h1, ⟨h2, by omega⟩, rfl⟩, h5⟩, _, ⟨j, ⟨⟨h6, ⟨h7, by omega⟩, h9⟩, h10⟩, rfl⟩, h11⟩)

theorem failure_sub (E : Env) (C : Failure) (W : World) (is : List Inp) : ∀ i ∈ C.filter E W is, i ∈ is := by
  unfold Failure.filter
  simp only [List.mem_append, List.mem_filter]
  rintro i ((h | h) | h)
  · exact h.1
  · exact h.1.1.1
  · exact h.1.1.1

theorem failure_nodup (E : Env) (C : Failure) (W : World) (is : List Inp) (h : (is.map Inp.fact).Nodup) :
    ((C.filter E W is).map Inp.fact).Nodup := by
  have hinj : ∀ a ∈ is, ∀ b ∈ is, a.fact = b.fact → a = b := fun a ha b hb => List.inj_on_of_nodup_map h ha hb
  have hnd : is.Nodup := h.of_map _
  have hsub := failure_sub E C W is
  refine List.Nodup.map_on (fun a ha b hb => hinj a (hsub a ha) b (hsub b hb)) ?_
  unfold Failure.filter
  dsimp only
  rw [List.nodup_append, List.nodup_append]
  refine ⟨⟨hnd.filter _, ((hnd.filter _).filter _).filter _, ?_⟩, ((hnd.filter _).filter _).filter _, ?_⟩
  · rintro a ha b hb rfl
    simp only [List.mem_filter, Failure.direct, Failure.aside, Bool.and_eq_true, Bool.not_eq_true'] at ha hb
    rw [ha.2.2] at hb
    cases hb.1.1.2.2
  · rintro a ha b hb rfl
    simp only [List.mem_append, List.mem_filter, Failure.direct, Failure.aside, Bool.and_eq_true, Bool.not_eq_true'] at ha hb
    rcases ha with ha | ha
    · rw [ha.2.2] at hb
      cases hb.1.1.2.2
    · rw [ha.1.2] at hb
      cases hb.1.2.1

theorem failure_reduce {E : Env} {S : Sigs} {st0 : St} (hn : Numbered st0) {ts : List Try} {st' : St}
    (h : each (Failure.round E S) st0.inputs.length 0 st0 = some (ts, st')) :
    Inv E S Try.cause (fun i => (st0.W i.fact).inst = none ∧ i.eligible = true) st0 st0.inputs st0.inputs.length ts st' := by
  have key := each_inv (f := Failure.round E S) (fun k us st =>
      Inv E S Try.cause (fun i => (st0.W i.fact).inst = none ∧ i.eligible = true) st0 st0.inputs k us st)
    st0.inputs.length ?_ ?_ st0.inputs.length 0 [] st0 ts st' (.start hn) (by simp) h
  · exact key
  · intro k us st hI
    have := congrArg List.length hI.facts
    simpa using this
  · intro k us st i' ts st' hI hi' hround
    have hmem := List.mem_of_getElem? hi'
    obtain ⟨e, he, hhit⟩ := hI.inputs
    have hi'' := hi'
    rw [he, mask_get, Option.map_eq_some_iff] at hi''
    obtain ⟨i, hi, rfl⟩ := hi''
    obtain ⟨hR, hc⟩ := failure_round (hI.fit hn) hmem hround
    have hlt : i.fact < st0.next := hn.2.1 i (List.mem_of_getElem? hi)
    dsimp only at hc hR
    rw [hI.same _ hlt] at hc
    refine hI.round hn hi hR (fun t ht => by rw [hR.cause t ht]; exact hlt) (fun hts => ?_) (fun hc' hel hts => ?_) hi' rfl hi (fun h => h.2)
    · by_contra hno
      exact hts (hc.2 fun h => hno ⟨h.1, (Bool.and_eq_true_iff.1 h.2).1⟩)
    · exact hc.1 hts ⟨hc'.1, hel⟩

theorem failure_safe {E : Env} {S : Sigs} {n : Nat} {st : St} (h : Safe n st) (i : Inp) (hi : i ∈ st.inputs) :
    ∃ ts st', Failure.round E S st i = some (ts, st') ∧ Safe n st' := by
  have key : ∃ ts st', Failure.round E S st i = some (ts, st') := by
    unfold Failure.round
    split_ifs
    · exact ⟨_, _, rfl⟩
    · obtain ⟨q, new, st1, hq⟩ := findOrMake_total E i.fact true st h.sane
      rw [hq]
      cases q with
      | nil => exact ⟨_, _, rfl⟩
      | cons p ps =>
        dsimp only
        split_ifs with hne
        · exact ⟨_, _, rfl⟩
        · have hst1 : st1 = st := by
            rcases (findOrMake_spec hq h.fit.made).2 with ⟨-, h1, -⟩ | ⟨o, h1, -⟩
            · exact h1
            · rw [h1] at hne; exact absurd rfl hne
          have hsane : Sane (several E S i.fact new (p :: ps) st1).2 := by
            obtain ⟨w1, w2, -⟩ := several_same E S i.fact new (p :: ps) st1
            unfold Sane
            rw [w1, w2, hst1]
            exact h.sane
          obtain ⟨m, st2, hm⟩ := make_total E i.fact _ hsane
          rw [hm]
          cases m <;> exact ⟨_, _, rfl⟩
  obtain ⟨ts, st', hts⟩ := key
  exact ⟨ts, st', hts, h.step (failure_round h.fit hi hts).1.step⟩

/-- C135 in part: nothing undefined happens; only facts that may be the reason are tried; each one is tried, or holds
when one that was tried starts to, and is in its state if no input is an instance of a state. Missing: instances among
the inputs, because of which a fact may be left out of the state (C83). -/
theorem C135_reasons_partial (E : Env) (S : Sigs) (C : Failure) (st : St) (hn : Numbered st) :
    (Sane st → ∃ ts st', C.reduce E S st = some (ts, st')) ∧
    ∀ ts st', C.reduce E S st = some (ts, st') →
      (∀ t ∈ ts, ∃ i ∈ st.inputs, i.fact = t.cause ∧ C.Candidate E st.W st.inputs i) ∧
      ∀ i ∈ st.inputs, C.Candidate E st.W st.inputs i →
        (∃ t ∈ ts, t.cause = i.fact ∨ (t.new ≠ [] ∧ Meanwhile st.W E.tol t.cause i.fact)) ∧
        ((∀ i ∈ st.inputs, (st.W i.fact).inst = none) → Covered st.W ts i.fact) := by
  have hsub := failure_sub E C st.W st.inputs
  have hn' := numbered_sub hn _ hsub
  refine ⟨fun hs => ?_, fun ts st' h => ?_⟩
  · unfold Failure.reduce
    exact each_total (Safe st.next) (fun st i h hi => failure_safe h i hi) _ _ _ (Safe.start hn' ⟨failure_nodup E C st.W st.inputs hs.1, hs.2⟩)
  · have hI := failure_reduce (st0 := { st with inputs := C.filter E st.W st.inputs }) hn' h
    refine ⟨fun t ht => ?_, fun i hi hc => ?_⟩
    · obtain ⟨i, hi, h1, h2⟩ := hI.sound t ht
      obtain ⟨h3, h4⟩ := (failure_mem E C st.W st.inputs i).1 ⟨hi, h2⟩
      exact ⟨i, h3, h1, h4⟩
    · obtain ⟨h1, h2⟩ := (failure_mem E C st.W st.inputs i).2 ⟨hi, hc⟩
      rcases hI.full i (by rw [List.take_length]; exact h1) h2 with ⟨t, ht, h1⟩ | ⟨t, ht, h1, h2, h3⟩
      · exact ⟨⟨t, ht, Or.inl h1⟩, fun _ => ⟨t, ht, Or.inl h1⟩⟩
      · refine ⟨⟨t, ht, ?_⟩, fun hfl => ⟨t, ht, Or.inr (Or.inl (h3 fun x hx => hfl x (hsub x hx)))⟩⟩
        rcases h2 with h2 | h2
        · exact Or.inl h2.symm
        · exact Or.inr ⟨h1, h2⟩

/-! ## C136 -/

theorem Inv.news {E : Env} {S : Sigs} {key : Try → Nat} {Cand : Inp → Prop} {st0 : St} {rest : List Inp} {j : Nat} {us : List Try} {st : St}
    (h : Inv E S key Cand st0 rest j us st) (hd : S.Distinct) : News S st0 st us :=
  ⟨(h.adds hd).new, (h.adds hd).once, (h.adds hd).white, (h.adds hd).black, fun t ht => (h.good t ht).grounded,
    fun t ht => (h.good t ht).state, fun t ht => (h.good t ht).about⟩

/-- C136 in part: all but that no state is sent twice. -/
theorem C136_news_partial (E : Env) (S : Sigs) (k : Kind) (st : St) (ts : List Try) (st' : St) (hd : S.Distinct) (hn : Numbered st)
    (ht : ∀ C, k = .change C → C.target < st.next) (h : reduce E S k st = some (ts, st')) : News S st st' ts := by
  cases k with
  | change C =>
    have hsub : ∀ i ∈ st.inputs.filter (C.keep E st.W), i ∈ st.inputs := fun i hi => (List.mem_filter.1 hi).1
    have := (change_reduce (st0 := { st with inputs := st.inputs.filter (C.keep E st.W) }) (numbered_sub hn _ hsub) (ht C rfl)
      (fun i hi => (List.mem_filter.1 hi).2) h).1.news hd
    exact ⟨this.new, this.once, this.white, this.black, this.grounded, this.state, this.about⟩
  | success C =>
    change C.reduce E S st = _ at h
    unfold Success.reduce at h
    split_ifs at h
    · cases h
      exact (Inv.start (E := E) (S := S) (key := Try.cause) (Cand := fun _ => True) hn).news hd
    · have hI := success_loop (E := E) (S := S) (C := C) hn st.inputs.length 0 [] st ts st' (by
        have := Inv.start (E := E) (S := S) (key := Try.cause) (Cand := C.Candidate E st.W) hn
        simpa [Success.left] using this) (by simp) h
      rw [List.nil_append] at hI
      exact hI.news hd
  | failure C =>
    have := (failure_reduce (st0 := { st with inputs := C.filter E st.W st.inputs }) (numbered_sub hn _ (failure_sub E C st.W st.inputs)) h).news hd
    exact ⟨this.new, this.once, this.white, this.black, this.grounded, this.state, this.about⟩

/-! ## Examples -/

def env : Env := ⟨1, 0, fun _ => false, fun _ => false⟩
/-- Each model has a signature of its own. -/
def own : Sigs where
  one c l := 3 * (100 * c + l)
  req c l p := 3 * (10000 * c + 100 * l + p) + 1
  req' c l p := 3 * (10000 * c + 100 * l + p) + 2
  closed _ _ _ := true
theorem own_distinct : own.Distinct := fun c l p => ⟨by show 3 * _ ≠ 3 * _ + 1; omega, by show 3 * _ ≠ 3 * _ + 2; omega⟩

/-- Facts with these times, none of which is an instance. -/
def timed (t : List (Nat × Int × Int)) : World := fun x =>
  match t.find? (·.1 == x) with | some e => ⟨e.2.1, e.2.2, none⟩ | none => ⟨0, 0, none⟩
def begin (W : World) (l : List Nat) : St := ⟨W, Extract.inputs l, [], 10, ⟨[], []⟩⟩

/-- 0 changes after 10; 1 and 3 came before it and ended, 2 came before it and did not. -/
def scene : World := timed [(0, 0, 10), (1, -20, -10), (2, -5, 5), (3, -30, -25)]
def changed : Change := ⟨0, 100, fun _ => true, fun _ => false, false, fun _ => true⟩

theorem begin_numbered (W : World) (l : List Nat) (h : ∀ x ∈ l, x < 10) : Numbered (begin W l) :=
  ⟨rfl, by
    intro i hi
    obtain ⟨x, hx, rfl⟩ := List.mem_map.1 hi
    exact h x hx, by simp [begin]⟩

theorem begin_sane (W : World) (l : List Nat) (h : l.Nodup) (hw : ∀ f s, (W f).inst = some s → s.parts.length ≤ s.pats.length) : Sane (begin W l) :=
  ⟨by simpa [begin, Extract.inputs, Function.comp_def] using h, hw⟩

/-- The fact 2 may be the cause, but holds when 0 starts to: once 1 was tried, for which a state of 0 and 2 was made, 2 is
not. -/
theorem C133_causes_violated :
    ¬ C133_full ∧
    (changed.reduce env own (begin scene [1, 0, 2])).map (fun r => r.1.map Try.cause) = some [1] ∧
    (((begin scene [1, 0, 2]).inputs.filter fun i => decide (changed.Candidate env scene i)).map Inp.fact) = [1, 2] := by
  have h1 : (changed.reduce env own (begin scene [1, 0, 2])).map (fun r => r.1.map Try.cause) = some [1] := by decide +kernel
  have h2 : (((begin scene [1, 0, 2]).inputs.filter fun i => decide (changed.Candidate env scene i)).map Inp.fact) = [1, 2] := by decide +kernel
  refine ⟨fun h => ?_, h1, h2⟩
  obtain ⟨⟨ts, st'⟩, hr, h3⟩ := Option.map_eq_some_iff.1 h1
  have := h env own changed _ ts st' (begin_numbered _ _ (by decide)) (by decide) hr
  change _ = ((begin scene [1, 0, 2]).inputs.filter fun i => decide (changed.Candidate env scene i)).map Inp.fact at this
  rw [h2, h3] at this
  cases this

/-- Two causes are tried, none of which holds when 0 starts to; one that came too late and one that came with it are not. -/
theorem C133_nonvacuous :
    (∀ i ∈ Extract.inputs [1, 0, 3], changed.Candidate env scene i → ¬ Meanwhile scene env.tol changed.target i.fact) ∧
    Numbered (begin scene [1, 0, 3]) ∧ Sane (begin scene [1, 0, 3]) ∧
    (changed.reduce env own (begin scene [1, 0, 3])).map (fun r => r.1.map Try.cause) = some [1, 3] ∧
    (Change.reduce env own { changed with after := -25 } (begin scene [1, 0, 3])).map (fun r => r.1.map Try.cause) = some [3] :=
  ⟨by decide +kernel, begin_numbered _ _ (by decide), begin_sane _ _ (by decide) (by
    intro f s h
    unfold scene timed at h
    split at h <;> cases h), by decide +kernel, by decide +kernel⟩

theorem at0_sane (t : List (Nat × List Nat)) : ∀ f s, (Extract.at0 t f).inst = some s → s.parts.length ≤ s.pats.length := by
  intro f s h
  unfold Extract.at0 at h
  simp only [Option.map_eq_some_iff] at h
  obtain ⟨e, -, rfl⟩ := h
  exact Nat.le_refl _

/-- Two facts and two instances of states, none of whose parts were observed, all at once. -/
def crowd : St := begin (Extract.at0 [(2, [7]), (3, [8])]) [0, 1, 2, 3]
def goal : Success := { since := -100, after := 100, aim := 0 }

theorem not_covered {W : World} {ts : List Try} {f : Nat}
    (h : ts.all (fun t => t.cause != f && !t.new.contains f && t.new.all fun y => !(Extract.partsOf W y).contains f) = true) : ¬ Covered W ts f := by
  rintro ⟨t, ht, hc⟩
  have := List.all_eq_true.1 h t ht
  simp only [Bool.and_eq_true, bne_iff_ne, Bool.not_eq_true', List.all_eq_true, List.contains_eq_mem, decide_eq_false_iff_not] at this
  rcases hc with hc | hc | ⟨y, hy, hc⟩
  · exact this.1.1 hc
  · exact this.1.2 hc
  · exact this.2 y hy hc

/-- If the evidence is an |fact and a state is found or made for the target of the goal, NULL is read. Besides, the fact 1 is neither
tried nor in the state that was made. -/
theorem C134_reasons_violated :
    ¬ C134_full ∧
    (Success.reduce env own { goal with anti := true } (begin (timed [(0, 0, 10), (1, -20, -10), (2, 0, 10)]) [1, 0, 2])).map (fun r => r.1) = none ∧
    (goal.reduce env own crowd).map (fun r => r.1.map fun t => (t.cause, t.new)) = some [(0, [2, 3])] := by
  have h1 : (Success.reduce env own { goal with anti := true } (begin (timed [(0, 0, 10), (1, -20, -10), (2, 0, 10)]) [1, 0, 2])).map (fun r => r.1) = none := by
    decide +kernel
  have h2 : (goal.reduce env own crowd).map (fun r => r.1.map fun t => (t.cause, t.new)) = some [(0, [2, 3])] := by decide +kernel
  refine ⟨fun h => ?_, h1, h2⟩
  obtain ⟨ts, st', hr, -⟩ := h env own { goal with anti := true } (begin (timed [(0, 0, 10), (1, -20, -10), (2, 0, 10)]) [1, 0, 2])
    (begin_numbered _ _ (by decide)) (begin_sane _ _ (by decide) (by
      intro f s h
      unfold timed at h
      split at h <;> cases h)) (by decide)
  rw [hr] at h1
  cases h1

/-- Without |facts the claim still fails, by the state that leaves out a fact. -/
theorem C134_crowd : ¬ ∀ ts st', goal.reduce env own crowd = some (ts, st') →
    ∀ i ∈ crowd.inputs, goal.Candidate env crowd.W i → Covered crowd.W ts i.fact := by
  intro h
  have h2 : (goal.reduce env own crowd).map (fun r => r.1.all fun t => t.cause != 1 && !t.new.contains 1 &&
      t.new.all fun y => !(Extract.partsOf crowd.W y).contains 1) = some true := by decide +kernel
  obtain ⟨⟨ts, st'⟩, hr, h3⟩ := Option.map_eq_some_iff.1 h2
  refine not_covered h3 (h ts st' hr ⟨1, true⟩ (by decide) ?_)
  refine ⟨rfl, rfl, ?_, ?_⟩ <;> decide

/-- Two facts that came at once and one before: a state is made of the two, and two models are sent. -/
theorem C134_nonvacuous :
    Numbered (begin scene [1, 0, 2]) ∧ Sane (begin scene [1, 0, 2]) ∧
    (goal.reduce env own (begin scene [1, 0, 2])).map (fun r => r.1.map fun t => (t.cause, t.new, t.sent)) =
      some [(1, [], [.mdl 10 303]), (0, [0, 2], [.state 11 [0, 2], .mdl 12 33])] :=
  ⟨begin_numbered _ _ (by decide), begin_sane _ _ (by decide) (by
    intro f s h
    unfold scene timed at h
    split at h <;> cases h), by decide +kernel⟩

def failed : Failure := ⟨100, fun _ => true, fun _ => false, fun _ _ => false, fun _ _ => false⟩

/-- The fact 1 is neither tried nor in the state that was made for 0. -/
theorem C135_reasons_violated :
    ¬ C135_full ∧ (failed.reduce env own crowd).map (fun r => r.1.map fun t => (t.cause, t.new)) = some [(0, [2, 3])] := by
  have h2 : (failed.reduce env own crowd).map (fun r => r.1.map fun t => (t.cause, t.new)) = some [(0, [2, 3])] := by decide +kernel
  have h4 : (failed.reduce env own crowd).map (fun r => r.1.all fun t => t.cause != 1 && !t.new.contains 1 &&
      t.new.all fun y => !(Extract.partsOf crowd.W y).contains 1) = some true := by decide +kernel
  refine ⟨fun h => ?_, h2⟩
  obtain ⟨ts, st', hr, -, hc⟩ := h env own failed crowd (begin_numbered _ _ (by decide)) (begin_sane _ _ (by decide) (at0_sane _))
  rw [hr] at h4
  have h3 : (ts.all fun t => t.cause != 1 && !t.new.contains 1 &&
      t.new.all fun y => !(Extract.partsOf crowd.W y).contains 1) = true := by simpa using h4
  refine not_covered h3 (hc ⟨1, true⟩ (by decide) ⟨rfl, rfl, Or.inl ⟨rfl, ?_, rfl⟩⟩)
  decide

/-- A fact that has nothing in common with the model but is a value like another one that has is tried as well; one that
has not, and one that came later, are not. -/
theorem C135_nonvacuous :
    Numbered (begin scene [1, 0, 2, 3]) ∧ Sane (begin scene [1, 0, 2, 3]) ∧
    ((⟨-10, fun f => f == 1, fun _ => true, fun a b => a == 3 && b == 1, fun _ _ => false⟩ : Failure).reduce env own
      (begin scene [1, 0, 2, 3])).map (fun r => r.1.map fun t => (t.cause, t.new, t.sent)) =
      some [(1, [], [.mdl 10 303]), (3, [], [.mdl 11 909])] :=
  ⟨begin_numbered _ _ (by decide), begin_sane _ _ (by decide) (by
    intro f s h
    unfold scene timed at h
    split at h <;> cases h), by decide +kernel⟩

/-- The same state is made and sent for each of two causes, since the one made first is not found again. -/
theorem C136_news_violated :
    ¬ C136_full ∧ (changed.reduce env own (begin scene [1, 0, 2, 3])).map (fun r => stuff (all r.1)) = some [[0, 2], [0, 2]] := by
  have h1 : (changed.reduce env own (begin scene [1, 0, 2, 3])).map (fun r => stuff (all r.1)) = some [[0, 2], [0, 2]] := by decide +kernel
  refine ⟨fun h => ?_, h1⟩
  obtain ⟨⟨ts, st'⟩, hr, h3⟩ := Option.map_eq_some_iff.1 h1
  have := (h env own (.change changed) (begin scene [1, 0, 2, 3]) ts st' own_distinct (begin_numbered _ _ (by decide)) (fun C hC => by cases hC; decide) hr).2
  rw [h3] at this
  revert this
  decide

/-- One cause: the state, the model and its requirement are sent; when the model is known, only the requirement is; when
the requirement is known as well, or black-listed, nothing is. -/
theorem C136_nonvacuous :
    own.Distinct ∧ Numbered (begin scene [1, 0, 2]) ∧
    (changed.reduce env own (begin scene [1, 0, 2])).map (fun r => all r.1) =
      some [.state 10 [0, 2], .mdl 11 303, .mdl 12 30331] ∧
    (changed.reduce env own { begin scene [1, 0, 2] with base := ⟨[⟨5, 303, 0⟩], []⟩ }).map (fun r => all r.1) =
      some [.state 10 [0, 2], .mdl 12 30332] ∧
    (changed.reduce env own { begin scene [1, 0, 2] with base := ⟨[⟨5, 303, 0⟩, ⟨6, 30332, 0⟩], []⟩ }).map (fun r => all r.1) = some [] ∧
    (changed.reduce env own { begin scene [1, 0, 2] with base := ⟨[⟨5, 303, 0⟩], [⟨6, 30332, 0⟩]⟩ }).map (fun r => all r.1) = some [] :=
  ⟨own_distinct, begin_numbered _ _ (by decide), by decide +kernel, by decide +kernel, by decide +kernel, by decide +kernel⟩

end Verif.Learn
