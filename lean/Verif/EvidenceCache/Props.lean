import Verif.EvidenceCache.Model
/-!
# C47: the evidence cache

The specification reads the history only (newest first): which facts were stored, in which order, and
which of them are still valid.
-/
namespace Verif.EvidenceCache
open Verif.CellList

/-! ## Specification -/

/-- The facts stored so far, newest first, each at its first storing. -/
def ledger : List (Nat × Op) → List Nat
  | [] => []
  | (_, .store id) :: h => if id ∈ ledger h then ledger h else id :: ledger h
  | _ :: h => ledger h

/-- The fact has been invalidated. -/
def Invalidated (h : List (Nat × Op)) (id : Nat) : Prop := ∃ t, (t, Op.invalidate id) ∈ h

/-- Neither invalidated nor expired at time `now`: a fact that holds at one instant is valid up to that
instant included, a fact that holds during an interval is valid before its end. -/
def Valid (F : Nat → Fact) (h : List (Nat × Op)) (now id : Nat) : Prop :=
  ¬ Invalidated h id ∧ (if (F id).aft = (F id).bef then now ≤ (F id).bef else now < (F id).bef)

/-- Time does not go back; `now` is not before the last event. -/
def Timed (now : Nat) : List (Nat × Op) → Prop
  | [] => True
  | (t, _) :: h => t ≤ now ∧ Timed t h

/-! ## Proofs -/

variable {F : Nat → Fact}

def live (F : Nat → Fact) (inv : Nat → Bool) (now id : Nat) : Bool :=
  !tooOld inv now ⟨id, (F id).aft, (F id).bef⟩

def ids (u : List (Nat × Entry)) : List Nat := u.map fun e => e.2.id

/-- Entries copy the timings of their facts. -/
def Copies (F : Nat → Fact) (u : List (Nat × Entry)) : Prop :=
  ∀ e ∈ u, e.2 = ⟨e.2.id, (F e.2.id).aft, (F e.2.id).bef⟩

theorem tooOld_eq {inv now} {u : List (Nat × Entry)} (hc : Copies F u) {e} (he : e ∈ u) :
    tooOld inv now e.2 = !live F inv now e.2.id := by
  unfold live; rw [← hc e he]; simp

theorem ids_filter {inv now} {u : List (Nat × Entry)} (hc : Copies F u) :
    ids (u.filter fun e => !tooOld inv now e.2) = (ids u).filter (live F inv now) := by
  induction u with
  | nil => rfl
  | cons e u ih =>
    have h1 := tooOld_eq (inv := inv) (now := now) hc (List.mem_cons_self)
    have h2 := ih (fun x hx => hc x (List.mem_cons_of_mem _ hx))
    unfold ids at h2 ⊢
    by_cases h : live F inv now e.2.id = true
    · simp [h1, h, h2]
    · simp [h1, h, h2]

/-- The loop of `_store_evidence` on sequences. -/
def storeList (inv : Nat → Bool) (now id : Nat) : List (Nat × Entry) → Bool × List (Nat × Entry)
  | [] => (false, [])
  | e :: u =>
    if e.2.id = id then (true, e :: u)
    else if tooOld inv now e.2 then storeList inv now id u
    else ((storeList inv now id u).1, e :: (storeList inv now id u).2)

theorem storeLoop_spec (inv : Nat → Bool) (now id : Nat) (u : List (Nat × Entry)) :
    ∀ (s : St Entry) (a : List (Nat × Entry)) (fr : List Nat) (k : Nat), u.length ≤ k → Rep s (a ++ u) fr →
    ∃ s' fr', storeLoop inv now id k s (hd u) = some ((storeList inv now id u).1, s') ∧
      Rep s' (a ++ (storeList inv now id u).2) fr' := by
  induction u with
  | nil =>
    intro s a fr k _ r
    exact ⟨s, fr, by cases k <;> rfl, by simpa [storeList] using r⟩
  | cons e u ih =>
    intro s a fr k hk r
    cases k with
    | zero => simp at hk
    | succ k =>
      obtain ⟨h1, h2⟩ := seg_tail_of_rep r
      by_cases hi : e.2.id = id
      · exact ⟨s, fr, by simp [storeLoop, h1, hi, storeList], by simpa [storeList, hi] using r⟩
      · by_cases ho : tooOld inv now e.2 = true
        · obtain ⟨s1, _, r1, e1⟩ := eraseCell_spec r
          obtain ⟨s', fr', e2, r2⟩ := ih s1 a _ k (by simpa using hk) r1
          refine ⟨s', fr', ?_, by simpa [storeList, hi, ho] using r2⟩
          simp [storeLoop, h1, hi, ho, e1, e2, storeList]
        · obtain ⟨s', fr', e2, r2⟩ := ih s (a ++ [e]) fr k (by simpa using hk) (by simpa using r)
          refine ⟨s', fr', ?_, by simpa [storeList, hi, ho] using r2⟩
          simp [storeLoop, h1, hi, ho, storeList, e2]

theorem storeList_sub (inv : Nat → Bool) (now id : Nat) (u : List (Nat × Entry)) :
    (storeList inv now id u).2.Sublist u := by
  induction u with
  | nil => simp [storeList]
  | cons e u ih =>
    unfold storeList
    split
    · exact List.Sublist.refl _
    · split
      · exact ih.cons _
      · exact ih.cons_cons _

theorem storeList_live (inv : Nat → Bool) (now id : Nat) (u : List (Nat × Entry)) :
    ((storeList inv now id u).2.filter fun e => !tooOld inv now e.2) = u.filter fun e => !tooOld inv now e.2 := by
  induction u with
  | nil => rfl
  | cons e u ih =>
    unfold storeList
    split
    · rfl
    · split
      · rename_i h; simp [h, ih]
      · rename_i h; simp [h, ih]

theorem storeList_found (inv : Nat → Bool) (now id : Nat) (u : List (Nat × Entry)) :
    (storeList inv now id u).1 = true ↔ id ∈ ids u := by
  induction u with
  | nil => simp [storeList, ids]
  | cons e u ih =>
    have : id ∈ ids (e :: u) ↔ id = e.2.id ∨ id ∈ ids u := by simp [ids]
    rw [this]
    unfold storeList
    by_cases hi : e.2.id = id
    · simp [hi]
    · have : ¬ id = e.2.id := fun h => hi h.symm
      rw [if_neg hi]
      by_cases ho : tooOld inv now e.2 = true
      · rw [if_pos ho, ih]; simp [this]
      · rw [if_neg ho]; simp [ih, this]

/-- What the cache has to do with the history. -/
structure Tracks (F : Nat → Fact) (h : List (Nat × Op)) (now : Nat) (w : World) : Prop where
  rep : ∃ u fr, Rep w.cache u fr ∧ Copies F u ∧ (ids u).Nodup ∧ (∀ i ∈ ids u, i ∈ ledger h) ∧
    (ids u).filter (live F w.inv now) = (ledger h).filter (live F w.inv now)
  inv : ∀ i, w.inv i = true ↔ Invalidated h i

theorem live_later {inv inv' : Nat → Bool} {now now' i : Nat} (ht : now ≤ now') (hi : inv i = true → inv' i = true)
    (hl : live F inv' now' i = true) : live F inv now i = true := by
  unfold live tooOld at hl ⊢
  simp only [Bool.not_eq_true', Bool.or_eq_false_iff] at hl ⊢
  refine ⟨?_, ?_⟩
  · cases h : inv i with
    | false => rfl
    | true => rw [hi h] at hl; exact absurd hl.1 (by simp)
  · have h2 := hl.2
    by_cases he : (F i).aft = (F i).bef
    · simp only [he, if_true, decide_eq_false_iff_not] at h2 ⊢; omega
    · simp only [he, if_false, decide_eq_false_iff_not] at h2 ⊢; omega

theorem filter_later {p q : Nat → Bool} (hpq : ∀ i, q i = true → p i = true) {a b : List Nat}
    (h : a.filter p = b.filter p) : a.filter q = b.filter q := by
  have e : ∀ l : List Nat, (l.filter p).filter q = l.filter q := by
    intro l
    rw [List.filter_filter]
    apply List.filter_congr
    intro x _
    cases hq : q x with
    | false => simp
    | true => simp [hpq x hq]
  rw [← e a, ← e b, h]

theorem Tracks.later {h now now' w} (t : Tracks F h now w) (ht : now ≤ now') : Tracks F h now' w := by
  obtain ⟨u, fr, r, c, n, s, f⟩ := t.rep
  exact ⟨⟨u, fr, r, c, n, s, filter_later (fun i => live_later ht id) f⟩, t.inv⟩

theorem ids_sublist {u v : List (Nat × Entry)} (h : u.Sublist v) : (ids u).Sublist (ids v) := h.map _

/-- A check drops old entries only. -/
theorem gcList_props {σ : Type} (inv : Nat → Bool) (now : Nat) (f : σ → Entry → σ × Bool) (u : List (Nat × Entry)) :
    ∀ x : σ, ((gcList (tooOld inv now) f u x).2.2).Sublist u ∧
    ((gcList (tooOld inv now) f u x).2.2.filter fun e => !tooOld inv now e.2) = u.filter fun e => !tooOld inv now e.2 := by
  induction u with
  | nil => intro x; simp [gcList]
  | cons e u ih =>
    intro x
    unfold gcList
    by_cases ho : tooOld inv now e.2 = true
    · rw [if_pos ho]
      exact ⟨(ih x).1.cons _, by rw [(ih x).2]; simp [ho]⟩
    · rw [if_neg ho]
      rcases hf : f x e.2 with ⟨x', b⟩
      cases b with
      | true => exact ⟨List.Sublist.refl _, rfl⟩
      | false => exact ⟨(ih x').1.cons_cons _, by simp [ho, (ih x').2]⟩

/-- The answer of a loop that is left at the first entry satisfying `P`. -/
theorem gcList_answer (inv : Nat → Bool) (now : Nat) (P : Nat → Prop) [DecidablePred P] (m : Nat → Res)
    (u : List (Nat × Entry)) (hc : Copies F u) :
    (gcList (tooOld inv now) (fun (x : Option (Nat × Res)) e => if P e.id then (some (e.id, m e.id), true) else (x, false)) u none).1 =
      (((ids u).filter (live F inv now)).find? fun i => P i).map fun i => (i, m i) := by
  rw [← ids_filter hc]
  obtain ⟨v, w, _, h2, _, _⟩ := gcList_find (tooOld inv now) (fun e : Entry => decide (P e.id))
    (fun (_ : Option (Nat × Res)) e => some (e.id, m e.id)) u none
  simp only [decide_eq_true_eq] at h2
  rw [h2]
  simp only
  have e1 : (List.filter (fun e => !tooOld inv now e) (u.map Prod.snd)) =
      (u.filter fun e => !tooOld inv now e.2).map Prod.snd := by rw [List.filter_map]; rfl
  rw [e1]
  unfold ids
  generalize (u.filter fun e => !tooOld inv now e.2) = z
  rw [show z.map (fun e => e.2.id) = (z.map Prod.snd).map (fun e => e.id) by simp]
  generalize z.map Prod.snd = y
  induction y with
  | nil => rfl
  | cons e y ih =>
    by_cases hp : P e.id
    · simp [List.find?_cons, hp]
    · simp [List.find?_cons, hp]; simpa using ih

theorem check_tracks {h : List (Nat × Op)} {now : Nat} {w : World} (t : Tracks F h now w) (P : Nat → Prop)
    [DecidablePred P] (m : Nat → Res) :
    ∃ b s', gcAll (tooOld w.inv now) (fun (x : Option (Nat × Res)) e => if P e.id then (some (e.id, m e.id), true) else (x, false))
        w.cache none = some ((((ledger h).filter (live F w.inv now)).find? fun i => P i).map (fun i => (i, m i)), b, s') ∧
      Tracks F h now { w with cache := s' } := by
  obtain ⟨u, fr, r, c, n, s, f⟩ := t.rep
  obtain ⟨s', fr', e1, r1⟩ := gcAll_spec (tooOld w.inv now)
    (fun (x : Option (Nat × Res)) e => if P e.id then (some (e.id, m e.id), true) else (x, false)) r none
  have hp := gcList_props w.inv now
    (fun (x : Option (Nat × Res)) e => if P e.id then (some (e.id, m e.id), true) else (x, false)) u none
  rw [gcList_answer (F := F) w.inv now P m u c, f] at e1
  refine ⟨_, s', e1, ⟨_, fr', r1, ?_, ?_, ?_, ?_⟩, t.inv⟩
  · exact fun e he => c e (hp.1.subset he)
  · exact (ids_sublist hp.1).nodup n
  · exact fun i hi => s i ((ids_sublist hp.1).subset hi)
  · rw [← f, ← ids_filter c, ← hp.2, ids_filter]
    exact fun e he => c e (hp.1.subset he)

theorem store_tracks {h : List (Nat × Op)} {now : Nat} {w : World} (t : Tracks F h now w) (id : Nat) :
    ∃ s', store F w.inv now id w.cache = some s' ∧ Tracks F ((now, .store id) :: h) now { w with cache := s' } := by
  obtain ⟨u, fr, r, c, n, s, f⟩ := t.rep
  have hinv : ∀ i, w.inv i = true ↔ Invalidated ((now, Op.store id) :: h) i := by
    intro i; rw [t.inv]; simp [Invalidated]
  obtain ⟨s', fr', e1, r1⟩ := storeLoop_spec w.inv now id u w.cache [] fr w.cache.n (by rw [r.size]; omega) (by simpa using r)
  rw [← r.hhead] at e1
  have hsub := storeList_sub w.inv now id u
  have hlive := storeList_live w.inv now id u
  have hcop : Copies F (storeList w.inv now id u).2 := fun e he => c e (hsub.subset he)
  have hids : (ids (storeList w.inv now id u).2).filter (live F w.inv now) = (ledger h).filter (live F w.inv now) := by
    rw [← f, ← ids_filter c, ← hlive, ids_filter hcop]
  simp only [List.nil_append] at r1
  unfold store
  rw [e1]
  by_cases hf : (storeList w.inv now id u).1 = true
  · have hm : id ∈ ledger h := s id ((storeList_found w.inv now id u).1 hf)
    have hl : ledger ((now, .store id) :: h) = ledger h := by simp [ledger, hm]
    rw [hf]
    exact ⟨s', rfl, ⟨_, fr', r1, hcop, (ids_sublist hsub).nodup n,
      by rw [hl]; exact fun i hi => s i ((ids_sublist hsub).subset hi), by rw [hl]; exact hids⟩, hinv⟩
  · have hni : id ∉ ids u := fun hi => hf ((storeList_found w.inv now id u).2 hi)
    rw [Bool.not_eq_true] at hf
    rw [hf]
    obtain ⟨i, s2, f2, p1, _, p3, _⟩ := pushFront_spec r1 ⟨id, (F id).aft, (F id).bef⟩
    refine ⟨s2, p1, ⟨_, f2, p3, ?_, ?_, ?_, ?_⟩, hinv⟩
    · intro e he
      rcases List.mem_cons.1 he with rfl | he
      · rfl
      · exact hcop e he
    · have : ids ((i, (⟨id, (F id).aft, (F id).bef⟩ : Entry)) :: (storeList w.inv now id u).2) =
          id :: ids (storeList w.inv now id u).2 := rfl
      rw [this]
      exact List.nodup_cons.2 ⟨fun hi => hni ((ids_sublist hsub).subset hi), (ids_sublist hsub).nodup n⟩
    · intro j hj
      have hj : j = id ∨ j ∈ ids (storeList w.inv now id u).2 := by simpa [ids] using hj
      simp only [ledger]
      split
      · rcases hj with rfl | hj
        · assumption
        · exact s j ((ids_sublist hsub).subset hj)
      · rcases hj with rfl | hj
        · exact List.mem_cons_self
        · exact List.mem_cons_of_mem _ (s j ((ids_sublist hsub).subset hj))
    · have : ids ((i, (⟨id, (F id).aft, (F id).bef⟩ : Entry)) :: (storeList w.inv now id u).2) =
          id :: ids (storeList w.inv now id u).2 := rfl
      rw [this]
      simp only [ledger]
      by_cases hm : id ∈ ledger h
      · rw [if_pos hm]
        have hdead : ¬ live F w.inv now id = true := by
          intro hl
          have : id ∈ (ids u).filter (live F w.inv now) := by rw [f]; exact List.mem_filter.2 ⟨hm, hl⟩
          exact hni (List.mem_filter.1 this).1
        rw [List.filter_cons_of_neg hdead, hids]
      · rw [if_neg hm]
        by_cases hl : live F w.inv now id = true
        · rw [List.filter_cons_of_pos hl, List.filter_cons_of_pos hl, hids]
        · rw [List.filter_cons_of_neg hl, List.filter_cons_of_neg hl, hids]

theorem tracks_run (h : List (Nat × Op)) : ∀ now, Timed now h → ∃ w, run F h = some w ∧ Tracks F h now w := by
  induction h with
  | nil =>
    intro now _
    exact ⟨start, rfl, ⟨[], [], rep_empty, by simp [Copies], by simp [ids], by simp [ids], by simp [ids, ledger]⟩,
      by simp [start, Invalidated]⟩
  | cons e h ih =>
    obtain ⟨t, op⟩ := e
    intro now ⟨ht, hr⟩
    obtain ⟨w, h1, h2⟩ := ih t hr
    simp only [run, h1, Option.bind_some]
    cases op with
    | store id =>
      obtain ⟨s', e1, t1⟩ := store_tracks h2 id
      exact ⟨_, by simp [step, e1], t1.later ht⟩
    | check m =>
      obtain ⟨b, s', e1, t1⟩ := check_tracks h2 (fun i => m i ≠ .failure) m
      refine ⟨{ w with cache := s' }, by simp only [step, check]; rw [e1]; rfl, Tracks.later ?_ ht⟩
      exact ⟨t1.rep, by intro i; rw [t1.inv]; simp [Invalidated]⟩
    | checkPred m cfd =>
      obtain ⟨b, s', e1, t1⟩ := check_tracks h2 (fun i => m i ≠ .failure ∧ cfd < (F i).cfd) m
      refine ⟨{ w with cache := s' }, by simp only [step, checkPred]; rw [e1]; rfl, Tracks.later ?_ ht⟩
      exact ⟨t1.rep, by intro i; rw [t1.inv]; simp [Invalidated]⟩
    | invalidate id =>
      refine ⟨_, rfl, Tracks.later ?_ ht⟩
      obtain ⟨u, fr, r, c, n, s, f⟩ := h2.rep
      refine ⟨⟨u, fr, r, c, n, s, ?_⟩, ?_⟩
      · refine filter_later (fun i => live_later (Nat.le_refl t) ?_) f
        intro hi; simp only [hi]; split <;> rfl
      · intro i
        simp only [Invalidated, List.mem_cons, Prod.mk.injEq, Op.invalidate.injEq]
        by_cases hi : i = id
        · simp only [hi, if_true, true_iff]; exact ⟨t, Or.inl ⟨rfl, trivial⟩⟩
        · simp only [hi, if_false, and_false, false_or]; exact h2.inv i

theorem live_iff {h : List (Nat × Op)} {now : Nat} {w : World} (t : Tracks F h now w) (i : Nat) :
    live F w.inv now i = true ↔ Valid F h now i := by
  unfold live tooOld Valid
  rw [← t.inv]
  by_cases he : (F i).aft = (F i).bef
  · simp [he, Bool.or_eq_false_iff]
  · simp [he, Bool.or_eq_false_iff]

/-! ## C47 -/

/-- C47, the contents. After any history the cache can be read; no fact is in it twice; only facts that
have been stored are in it; and those in it that are still valid are exactly the facts that were stored
and are still valid, in the order of their first storing, newest first. -/
theorem C47_contents (F : Nat → Fact) (h : List (Nat × Op)) (now : Nat) (ht : Timed now h) :
    ∃ w es, run F h = some w ∧ entries w.cache = some es ∧
      (es.map fun e => e.2.id).Nodup ∧ (∀ e ∈ es, e.2.id ∈ ledger h) ∧
      ∀ p : Nat → Bool, (∀ i, p i = true ↔ Valid F h now i) →
        (es.map fun e => e.2.id).filter p = (ledger h).filter p := by
  obtain ⟨w, h1, t⟩ := tracks_run (F := F) h now ht
  obtain ⟨u, fr, r, c, n, s, f⟩ := t.rep
  refine ⟨w, u, h1, entries_spec r, n, ?_, ?_⟩
  · intro e he; exact s e.2.id (List.mem_map_of_mem he)
  · intro p hp
    have : p = live F w.inv now := by
      funext i
      have a := hp i; have b := live_iff t i
      rw [← b] at a
      exact Bool.eq_iff_iff.2 a
    rw [this]; exact f

/-- The answer to be given for a target: the newest stored, still valid fact that satisfies `P`. -/
def Newest (F : Nat → Fact) (h : List (Nat × Op)) (now : Nat) (P : Nat → Prop) (m : Nat → Res)
    (a : Option (Nat × Res)) : Prop :=
  match a with
  | none => ∀ i ∈ ledger h, Valid F h now i → ¬ P i
  | some (i, r) => r = m i ∧ Valid F h now i ∧ P i ∧
      ∃ newer older, ledger h = newer ++ i :: older ∧ ∀ j ∈ newer, Valid F h now j → ¬ P j

theorem newest_of_find {h : List (Nat × Op)} {now : Nat} {w : World} (t : Tracks F h now w) (P : Nat → Prop)
    [DecidablePred P] (m : Nat → Res) :
    Newest F h now P m ((((ledger h).filter (live F w.inv now)).find? fun i => P i).map (fun i => (i, m i))) := by
  have hl := live_iff t
  generalize live F w.inv now = p at hl
  cases hf : ((ledger h).filter p).find? fun i => P i with
  | none =>
    simp only [Option.map_none, Newest]
    intro i hi hv hp
    have := List.find?_eq_none.1 hf i (List.mem_filter.2 ⟨hi, (hl i).2 hv⟩)
    simp [hp] at this
  | some i =>
    rw [List.find?_filter] at hf
    obtain ⟨h1, as, bs, h2, h3⟩ := List.find?_eq_some_iff_append.1 hf
    simp only [decide_eq_true_eq] at h1
    refine ⟨rfl, (hl i).1 h1.1, h1.2, as, bs, h2, ?_⟩
    intro j hj hv hp
    have := h3 j hj
    simp [(hl j).2 hv, hp] at this

/-- C47, the checks. After any history a check of the evidences answers with the newest valid fact that
matches the target, and a check of the predicted evidences with the newest valid fact that matches and
is more confident than the target. -/
theorem C47_checks (F : Nat → Fact) (h : List (Nat × Op)) (now : Nat) (ht : Timed now h) (m : Nat → Res) (cfd : Rat) :
    ∃ w, run F h = some w ∧
      (∃ a s', check w.inv now m w.cache = some (a, s') ∧ Newest F h now (fun i => m i ≠ .failure) m a) ∧
      (∃ a s', checkPred F w.inv now m cfd w.cache = some (a, s') ∧
        Newest F h now (fun i => m i ≠ .failure ∧ cfd < (F i).cfd) m a) := by
  obtain ⟨w, h1, t⟩ := tracks_run (F := F) h now ht
  refine ⟨w, h1, ?_, ?_⟩
  · obtain ⟨b, s', e1, _⟩ := check_tracks t (fun i => m i ≠ .failure) m
    exact ⟨_, s', by unfold check; rw [e1], newest_of_find t _ m⟩
  · obtain ⟨b, s', e1, _⟩ := check_tracks t (fun i => m i ≠ .failure ∧ cfd < (F i).cfd) m
    exact ⟨_, s', by unfold checkPred; rw [e1], newest_of_find t _ m⟩

/-- A history with a repeated store, an expiry and an invalidation. -/
theorem C47_nonvacuous :
    let F : Nat → Fact := fun i => ⟨0, if i = 1 then 5 else 20, 1⟩
    let h : List (Nat × Op) := [(9, .store 2), (8, .invalidate 3), (7, .store 4), (3, .store 3), (2, .store 2), (1, .store 1)]
    Timed 10 h ∧ ledger h = [4, 3, 2, 1] ∧
      ((run F h).bind fun w => (check w.inv 10 (fun i => if i = 4 then .failure else .positive) w.cache).map (·.1)) =
        some (some (2, .positive)) := by
  refine ⟨by simp [Timed], by decide, by decide⟩

end Verif.EvidenceCache
