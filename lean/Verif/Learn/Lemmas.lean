import Verif.Learn.Spec
/-!
# What the steps of learning change
-/
namespace Verif.Learn
open Verif.Extract (World Inp Inst Fct Comp Meanwhile)
open Verif.ModelBase (Base Has)

/-- Inputs of which some are flagged. -/
def mask (e : Nat → Bool) (is : List Inp) : List Inp := is.map fun i => { i with eligible := i.eligible && e i.fact }

theorem mask_true (is : List Inp) : mask (fun _ => true) is = is := by simp [mask]

theorem mask_mask (e e' : Nat → Bool) (is : List Inp) : mask e' (mask e is) = mask (fun f => e f && e' f) is := by
  simp [mask, Bool.and_assoc]

theorem mask_fact (e : Nat → Bool) (is : List Inp) : (mask e is).map Inp.fact = is.map Inp.fact := by
  simp [mask, Function.comp_def]

theorem mask_get (e : Nat → Bool) (is : List Inp) (k : Nat) :
    (mask e is)[k]? = (is[k]?).map fun i => { i with eligible := i.eligible && e i.fact } := by simp [mask]

theorem flag_mask (l : List Comp) (is : List Inp) :
    Extract.flag l is = mask (fun f => !l.any fun x => x.object == f) is := by
  unfold Extract.flag mask
  apply List.map_congr_left
  intro i _
  cases h : l.any fun x => x.object == i.fact
  · rw [if_neg (by simp)]
    dsimp only
    rw [h, Bool.not_false, Bool.and_true]
  · rw [if_pos rfl]
    dsimp only
    rw [h, Bool.not_true, Bool.and_false]

/-! ## The facts looked at -/

theorem mark_objects (l : List Comp) (j : Nat) : (Extract.mark l j).map Comp.object = l.map Comp.object := by
  unfold Extract.mark
  apply List.ext_getElem?
  intro n
  simp only [List.getElem?_map, List.getElem?_modify]
  cases l[n]? with
  | none => rfl
  | some x => by_cases h : j = n <;> simp [h]

theorem foldl_mark_objects (js : List Nat) (l : List Comp) : (js.foldl Extract.mark l).map Comp.object = l.map Comp.object := by
  induction js generalizing l with
  | nil => rfl
  | cons j js ih => rw [List.foldl_cons, ih, mark_objects]

theorem filterParts_objects {parts : List Nat} {index : Nat} {l l' : List Comp}
    (h : Extract.filterParts parts index l = some l') : l'.map Comp.object = l.map Comp.object := by
  unfold Extract.filterParts at h
  simp only at h
  split_ifs at h
  · cases h; exact foldl_mark_objects _ _
  · cases h; exact mark_objects _ _

theorem filterAll_objects {W : World} {ks : List Nat} {j : Nat} {l l' : List Comp}
    (h : Extract.filterAll W j ks l = some l') : l'.map Comp.object = l.map Comp.object := by
  induction ks generalizing j l with
  | nil => cases h; rfl
  | cons k ks ih =>
    unfold Extract.filterAll at h
    cases hk : l[k]? with
    | none => rw [hk] at h; cases h
    | some x =>
      rw [hk] at h
      dsimp only at h
      cases hp : Extract.filterParts (Extract.partsOf W x.object) j l with
      | none => rw [hp] at h; cases h
      | some l₁ =>
        rw [hp, Option.bind_some] at h
        rw [ih h, filterParts_objects hp]

/-- Whoever is flagged when a state is made was looked at. -/
theorem makeState_inputs {W : World} {tol : Int} {c : Nat} {is : List Inp} {m : Extract.Made}
    (h : Extract.makeState W tol c is = some (some m)) :
    ∃ e, m.inputs = mask e is ∧ (∀ f, e f = false → f = c ∨ Meanwhile W tol c f) ∧ m.inst.parts = [] ∧
      (∀ x ∈ m.objs, x ∈ is.map Inp.fact) ∧ m.objs ≠ [] ∧
      ((∀ i ∈ is, (W i.fact).inst = none) → ∀ f, e f = false → f ∈ m.objs) := by
  obtain ⟨ks, hg, hks⟩ := Extract.gather_spec W tol c is [] [] (by simp [Extract.insts])
  simp only [List.nil_append] at hg hks
  change Extract.gather W tol c is [] [] = _ at hg
  unfold Extract.makeState at h
  rw [hg] at h
  simp only [Option.map_eq_some_iff] at h
  obtain ⟨l, hl, h⟩ := h
  have ho := filterAll_objects hl
  have hos : l.map Comp.object = Extract.together W tol c is := by
    rw [ho]; simp [Extract.comps, Function.comp_def]
  by_cases h2 : (l.filter fun x => !x.discarded).length ≤ 1
  · rw [if_pos h2] at h; cases h
  · rw [if_neg h2] at h
    cases h
    have hin : ∀ x ∈ l, x.object ∈ Extract.together W tol c is := fun x hx => hos ▸ List.mem_map.2 ⟨x, hx, rfl⟩
    refine ⟨_, flag_mask l is, ?_, rfl, ?_, ?_, ?_⟩
    · intro f hf
      simp only [Bool.not_eq_false', List.any_eq_true, beq_iff_eq] at hf
      obtain ⟨x, hx, rfl⟩ := hf
      have := hin x hx
      unfold Extract.together at this
      simp only [List.mem_filter, decide_eq_true_eq] at this
      rcases this.2 with h | h
      · exact Or.inl h.symm
      · exact Or.inr h
    · intro x hx
      have : x ∈ Extract.together W tol c is := by
        simp only [Extract.order, List.mem_append] at hx
        rcases hx with hx | hx
        · split_ifs at hx with ha
          · simp only [List.mem_singleton] at hx
            subst hx
            obtain ⟨y, hy, he⟩ := List.any_eq_true.1 ha
            simp only [Bool.and_eq_true, beq_iff_eq] at he
            exact he.2 ▸ hin y hy
          · cases hx
        · obtain ⟨y, hy, rfl⟩ := List.mem_map.1 hx
          exact hin y (List.mem_filter.1 hy).1
      exact (List.mem_filter.1 this).1
    · intro hn
      obtain ⟨hn1, hn2⟩ := List.append_eq_nil_iff.1 hn
      have : l.filter (fun x => !x.discarded) = [] := by
        rw [List.filter_eq_nil_iff]
        intro x hx hd
        by_cases hc : x.object = c
        · rw [if_pos (List.any_eq_true.2 ⟨x, hx, by simp [hc]; simpa using hd⟩)] at hn1
          cases hn1
        · have := List.filter_eq_nil_iff.1 (List.map_eq_nil_iff.1 hn2) x hx
          simp [hc] at this
          rw [this] at hd
          cases hd
      rw [this] at h2
      exact h2 (by simp)
    · intro hflat f hf
      have hk : ks = [] := by
        have : Extract.insts W c (Extract.together W tol c is) = [] := by
          unfold Extract.insts
          rw [List.filter_eq_nil_iff]
          intro x hx
          obtain ⟨i, hi, rfl⟩ := List.mem_map.1 (List.mem_filter.1 hx).1
          simp [hflat i hi]
        rw [this] at hks
        simpa using hks
      subst hk
      simp only [Extract.filterAll, Option.some.injEq] at hl
      subst hl
      simp only [Bool.not_eq_false', List.any_eq_true, beq_iff_eq] at hf
      obtain ⟨x, hx, rfl⟩ := hf
      have hxd : x.discarded = false := by
        obtain ⟨y, -, rfl⟩ := List.mem_map.1 hx
        rfl
      show x.object ∈ Extract.order c _
      unfold Extract.order
      rw [List.mem_append]
      by_cases hc : x.object = c
      · left
        rw [if_pos (List.any_eq_true.2 ⟨x, hx, by simp [hc, hxd]⟩), hc]
        simp
      · right
        exact List.mem_map.2 ⟨x, List.mem_filter.2 ⟨hx, by simp [hc, hxd]⟩, rfl⟩

/-! ## What steps leave as it is -/

/-- All models known have been numbered before. -/
def Low (st : St) : Prop := ∀ e ∈ st.base.white, e.mdl < st.next

/-- From one state of an extractor to another: facts there were are the same, what was made has no parts, inputs are
flagged only if `P`. -/
structure Step (P : Nat → Prop) (st st' : St) : Prop where
  next : st.next ≤ st'.next
  same : ∀ f, f < st.next → st'.W f = st.W f
  made : ∀ f ∈ st'.made, f ∈ st.made ∨ (st.next ≤ f ∧ f < st'.next ∧ ∃ s, (st'.W f).inst = some s ∧ s.parts = [])
  inputs : ∃ e, st'.inputs = mask e st.inputs ∧ ∀ f, e f = false → P f
  low : Low st → Low st'
  sane : Sane st → Sane st'

theorem Step.refl (st : St) : Step (fun _ => False) st st :=
  ⟨Nat.le_refl _, fun _ _ => rfl, fun _ h => Or.inl h, ⟨fun _ => true, (mask_true _).symm, fun _ h => by cases h⟩, id, id⟩

theorem Step.trans {P Q R : Nat → Prop} {st st' st'' : St} (h : Step P st st') (h' : Step Q st' st'')
    (hP : ∀ f, P f → R f) (hQ : ∀ f, Q f → R f) : Step R st st'' := by
  refine ⟨Nat.le_trans h.next h'.next, fun f hf => by rw [h'.same f (Nat.lt_of_lt_of_le hf h.next), h.same f hf], ?_, ?_, fun hl => h'.low (h.low hl), fun hl => h'.sane (h.sane hl)⟩
  · intro f hf
    rcases h'.made f hf with hf | ⟨h1, h2, h3⟩
    · rcases h.made f hf with hf | ⟨h1, h2, h3⟩
      · exact Or.inl hf
      · exact Or.inr ⟨h1, Nat.lt_of_lt_of_le h2 h'.next, by rw [h'.same f h2]; exact h3⟩
    · exact Or.inr ⟨Nat.le_trans h.next h1, h2, h3⟩
  · obtain ⟨e, h1, h2⟩ := h.inputs
    obtain ⟨e', h3, h4⟩ := h'.inputs
    refine ⟨fun f => e f && e' f, by rw [h3, h1, mask_mask], fun f hf => ?_⟩
    rcases Bool.and_eq_false_iff.1 hf with hf | hf
    · exact hP f (h2 f hf)
    · exact hQ f (h4 f hf)

theorem Step.mono {P Q : Nat → Prop} {st st' : St} (h : Step P st st') (hP : ∀ f, P f → Q f) : Step Q st st' :=
  ⟨h.next, h.same, h.made, (let ⟨e, h1, h2⟩ := h.inputs; ⟨e, h1, fun f hf => hP f (h2 f hf)⟩), h.low, h.sane⟩

/-! ## What is known -/

/-- From one model base to another, while `l` is sent. -/
structure Adds (b b' : Base) (l : List Sent) : Prop where
  new : ∀ s ∈ sigs l, ¬ Has b.white s ∧ ¬ Has b.black s ∧ Has b'.white s
  once : (sigs l).Nodup
  white : ∀ s, Has b.white s → Has b'.white s
  black : ∀ s, Has b'.black s ↔ Has b.black s

theorem sigs_append (l l' : List Sent) : sigs (l ++ l') = sigs l ++ sigs l' := List.filterMap_append

theorem Adds.refl (b : Base) : Adds b b [] := ⟨by simp [sigs], by simp [sigs], fun _ h => h, fun _ => Iff.rfl⟩

theorem Adds.trans {b b' b'' : Base} {l l' : List Sent} (h : Adds b b' l) (h' : Adds b' b'' l') : Adds b b'' (l ++ l') := by
  refine ⟨?_, ?_, fun s hs => h'.white s (h.white s hs), fun s => (h'.black s).trans (h.black s)⟩
  · intro s hs
    rw [sigs_append, List.mem_append] at hs
    rcases hs with hs | hs
    · obtain ⟨h1, h2, h3⟩ := h.new s hs
      exact ⟨h1, h2, h'.white s h3⟩
    · obtain ⟨h1, h2, h3⟩ := h'.new s hs
      exact ⟨fun x => h1 (h.white s x), fun x => h2 ((h.black s).2 x), h3⟩
  · rw [sigs_append, List.nodup_append]
    exact ⟨h.once, h'.once, fun s hs t ht e => (h'.new t ht).1 (e ▸ (h.new s hs).2.2)⟩

theorem sigs_states (new : Option (Nat × List Nat)) : sigs (states new) = [] := by cases new <;> rfl

theorem check_adds (b : Base) (m s : Nat) (now : Int) (n : Nat) (hlow : ∀ e ∈ b.white, e.mdl < n) (hm : m = n)
    (new : Option (Nat × List Nat)) :
    (∀ e ∈ (ModelBase.check b m s now).2.white, e.mdl < n + 1) ∧
    (∀ x b', ModelBase.check b m s now = (some x, b') → x = m → Adds b b' (states new ++ [.mdl m s]) ∧ Has b'.white s) ∧
    Adds b (ModelBase.check b m s now).2 [] := by
  unfold ModelBase.check
  cases h1 : ModelBase.find b.black s with
  | some e =>
    have he := ModelBase.find_some h1
    dsimp only
    refine ⟨fun x hx => Nat.lt_succ_of_lt (hlow x hx), fun x b' h => (by cases h), ?_⟩
    exact ⟨by simp [sigs], by simp [sigs], fun _ h => h, fun t => ModelBase.has_refresh ⟨e, he.1, rfl⟩⟩
  | none =>
    have hb := ModelBase.find_none.1 h1
    cases h2 : ModelBase.find b.white s with
    | some e =>
      have he := ModelBase.find_some h2
      dsimp only
      refine ⟨fun x hx => ?_, fun x b' h => ?_, ?_⟩
      · rcases ModelBase.mem_refresh.1 hx with rfl | ⟨hx, _⟩
        · exact Nat.lt_succ_of_lt (hlow e he.1)
        · exact Nat.lt_succ_of_lt (hlow x hx)
      · intro hx
        cases h
        have := hlow e he.1
        omega
      · exact ⟨by simp [sigs], by simp [sigs], fun t h => (ModelBase.has_refresh ⟨e, he.1, rfl⟩).2 h, fun t => Iff.rfl⟩
    | none =>
      have hw := ModelBase.find_none.1 h2
      dsimp only
      refine ⟨fun x hx => ?_, fun x b' h hx => ?_, ?_⟩
      · rw [ModelBase.insert_new hw] at hx
        rcases List.mem_cons.1 hx with rfl | hx
        · show m < n + 1
          omega
        · exact Nat.lt_succ_of_lt (hlow x hx)
      · cases h
        refine ⟨⟨?_, ?_, fun t ht => ModelBase.has_insert.2 (Or.inl ht), fun t => Iff.rfl⟩, ModelBase.has_insert.2 (Or.inr rfl)⟩
        · intro t ht
          rw [sigs_append, sigs_states] at ht
          simp [sigs] at ht
          subst ht
          exact ⟨hw, hb, ModelBase.has_insert.2 (Or.inr rfl)⟩
        · rw [sigs_append, sigs_states]
          simp [sigs]
      · exact ⟨by simp [sigs], by simp [sigs], fun t ht => ModelBase.has_insert.2 (Or.inl ht), fun t => Iff.rfl⟩

/-- What is sent in one attempt, for the state `new`. -/
structure Shape (S : Sigs) (b' : Base) (new : Option (Nat × List Nat)) (t : Try) : Prop where
  objs : t.new = Learn.objs new
  sent : t.sent = [] ∨ (∃ ms, t.sent = states new ++ ms ∧ sigs ms ≠ [] ∧ ∀ f o, .state f o ∉ ms) ∧ Has b'.white (S.one t.cause t.lhs)

theorem single_spec (E : Env) (S : Sigs) (cause lhs : Nat) (new : Option (Nat × List Nat)) (st : St) (hl : Low st) :
    Step (fun _ => False) st (single E S cause lhs new st).2 ∧
    (single E S cause lhs new st).1.cause = cause ∧ (single E S cause lhs new st).1.lhs = lhs ∧
    (single E S cause lhs new st).1.prem = none ∧
    Adds st.base (single E S cause lhs new st).2.base (single E S cause lhs new st).1.sent ∧
    Shape S (single E S cause lhs new st).2.base new (single E S cause lhs new st).1 := by
  obtain ⟨h1, h2, h3⟩ := (check_adds st.base st.next (S.one cause lhs) E.now st.next hl rfl new)
  unfold single
  dsimp only
  cases hc : ModelBase.check st.base st.next (S.one cause lhs) E.now with
  | mk o b =>
    rw [hc] at h1 h3
    have hs : ∀ st' : St, st' = ⟨st.W, st.inputs, st.made, st.next + 1, b⟩ → Step (fun _ => False) st st' := by
      rintro _ rfl
      exact ⟨by simp, fun _ _ => rfl, fun _ h => Or.inl h, ⟨fun _ => true, (mask_true _).symm, fun _ h => by cases h⟩, fun _ => h1, id⟩
    cases o with
    | none => exact ⟨hs _ rfl, rfl, rfl, rfl, h3, rfl, Or.inl rfl⟩
    | some x =>
      dsimp only
      by_cases hx : x = st.next
      · obtain ⟨h4, h5⟩ := h2 x b hc hx
        rw [if_pos hx]
        exact ⟨hs _ rfl, rfl, rfl, rfl, h4, rfl, Or.inr ⟨⟨_, rfl, by simp [sigs], by simp⟩, h5⟩⟩
      · rw [if_neg hx]
        exact ⟨hs _ rfl, rfl, rfl, rfl, h3, rfl, Or.inl rfl⟩

theorem Adds.nil {b b' : Base} (h1 : ∀ s, Has b.white s → Has b'.white s) (h2 : ∀ s, Has b'.black s ↔ Has b.black s) :
    Adds b b' [] := ⟨by simp [sigs], by simp [sigs], h1, h2⟩

theorem low_refresh {l : List ModelBase.Entry} {e : ModelBase.Entry} {now : Int} {n : Nat} (h : ∀ x ∈ l, x.mdl < n) (he : e ∈ l) :
    ∀ x ∈ ModelBase.refresh l e now, x.mdl < n := by
  intro x hx
  rcases ModelBase.mem_refresh.1 hx with rfl | ⟨hx, _⟩
  · exact h e he
  · exact h x hx

theorem low_insert {l : List ModelBase.Entry} {e : ModelBase.Entry} {n : Nat} (h : ∀ x ∈ l, x.mdl < n) (he : e.mdl < n) :
    ∀ x ∈ ModelBase.insert l e, x.mdl < n := by
  intro x hx
  by_cases hh : Has l e.sig
  · rw [ModelBase.insert_old hh] at hx
    exact h x hx
  · rw [ModelBase.insert_new hh] at hx
    rcases List.mem_cons.1 hx with rfl | hx
    · exact he
    · exact h x hx

theorem pair_adds (b : Base) (s0 s1 s1' : Nat) (now : Int) (n : Nat) (hlow : ∀ e ∈ b.white, e.mdl < n)
    (new : Option (Nat × List Nat)) :
    (∀ e ∈ (ModelBase.checkPair b n s0 (n + 1) s1 s1' now).2.white, e.mdl < n + 2) ∧
    (∀ x0 b', ModelBase.checkPair b n s0 (n + 1) s1 s1' now = ((x0, some (n + 1)), b') →
      ∃ y, x0 = some y ∧ Has b'.white s0 ∧
        (y = n → s0 ≠ s1 → Adds b b' (states new ++ [.mdl n s0] ++ [.mdl (n + 1) s1])) ∧
        (y ≠ n → Adds b b' (states new ++ [] ++ [.mdl (n + 1) s1']))) ∧
    Adds b (ModelBase.checkPair b n s0 (n + 1) s1 s1' now).2 [] := by
  have hlow2 : ∀ e ∈ b.white, e.mdl < n + 2 := fun e he => by have := hlow e he; omega
  unfold ModelBase.checkPair
  cases h0 : ModelBase.find b.black s0 with
  | some e =>
    have he := ModelBase.find_some h0
    exact ⟨hlow2, fun x b' h => (by cases h), .nil (fun _ h => h) fun t => ModelBase.has_refresh ⟨e, he.1, rfl⟩⟩
  | none =>
    have n0 := ModelBase.find_none.1 h0
    dsimp only
    cases h1 : ModelBase.find b.white s0 with
    | some e0 =>
      have he0 := ModelBase.find_some h1
      have hw : ∀ t, Has (ModelBase.refresh b.white e0 now) t ↔ Has b.white t := fun t => ModelBase.has_refresh ⟨e0, he0.1, rfl⟩
      have hl := low_refresh (now := now) hlow he0.1
      have hl2 := low_refresh (now := now) hlow2 he0.1
      have hlt := hlow e0 he0.1
      have hs0 : Has b.white s0 := ⟨e0, he0⟩
      dsimp only
      cases h2 : ModelBase.find b.black s1' with
      | some e =>
        have he := ModelBase.find_some h2
        exact ⟨hl2, fun x b' h => (by cases h), .nil (fun t h => (hw t).2 h) fun t => ModelBase.has_refresh ⟨e, he.1, rfl⟩⟩
      | none =>
        have n1 := ModelBase.find_none.1 h2
        dsimp only
        cases h3 : ModelBase.find (ModelBase.refresh b.white e0 now) s1' with
        | some e =>
          have he := ModelBase.find_some h3
          refine ⟨low_refresh hl2 he.1, fun x b' h => ?_, .nil (fun t h => (ModelBase.has_refresh ⟨e, he.1, rfl⟩).2 ((hw t).2 h)) fun t => Iff.rfl⟩
          have := hl e he.1
          simp only [Prod.mk.injEq, Option.some.injEq] at h
          omega
        | none =>
          have n2 := ModelBase.find_none.1 h3
          dsimp only
          rw [if_neg (by omega)]
          refine ⟨low_insert hl2 (by simp), fun x b' h => ?_, .nil (fun t h => ModelBase.has_insert.2 (Or.inl ((hw t).2 h))) fun t => Iff.rfl⟩
          cases h
          refine ⟨e0.mdl, rfl, ModelBase.has_insert.2 (Or.inl ((hw _).2 hs0)), fun h => by omega, fun _ => ?_⟩
          have hsg : sigs (states new ++ [] ++ [.mdl (n + 1) s1']) = [s1'] := by
            rw [sigs_append, sigs_append, sigs_states]; rfl
          refine ⟨?_, by rw [hsg]; simp, fun t h => ModelBase.has_insert.2 (Or.inl ((hw t).2 h)), fun t => Iff.rfl⟩
          rw [hsg]
          intro t ht
          simp at ht
          subst ht
          exact ⟨fun h => n2 ((hw _).2 h), n1, ModelBase.has_insert.2 (Or.inr rfl)⟩
    | none =>
      have m0 := ModelBase.find_none.1 h1
      dsimp only
      cases h2 : ModelBase.find b.black s1 with
      | some e =>
        have he := ModelBase.find_some h2
        exact ⟨hlow2, fun x b' h => (by cases h), .nil (fun _ h => h) fun t => ModelBase.has_refresh ⟨e, he.1, rfl⟩⟩
      | none =>
        have n1 := ModelBase.find_none.1 h2
        dsimp only
        cases h3 : ModelBase.find b.white s1 with
        | some e =>
          have he := ModelBase.find_some h3
          refine ⟨low_refresh hlow2 he.1, fun x b' h => ?_, .nil (fun t h => (ModelBase.has_refresh ⟨e, he.1, rfl⟩).2 h) fun t => Iff.rfl⟩
          have := hlow e he.1
          simp only [Prod.mk.injEq, Option.some.injEq] at h
          omega
        | none =>
          have m1 := ModelBase.find_none.1 h3
          dsimp only
          refine ⟨low_insert (low_insert hlow2 (by simp)) (by simp), fun x b' h => ?_,
            .nil (fun t h => ModelBase.has_insert.2 (Or.inl (ModelBase.has_insert.2 (Or.inl h)))) fun t => Iff.rfl⟩
          cases h
          refine ⟨n, rfl, ModelBase.has_insert.2 (Or.inl (ModelBase.has_insert.2 (Or.inr rfl))), fun _ hs => ?_, fun h => absurd rfl h⟩
          have hsg : sigs (states new ++ [.mdl n s0] ++ [.mdl (n + 1) s1]) = [s0, s1] := by
            rw [sigs_append, sigs_append, sigs_states]; rfl
          refine ⟨?_, by rw [hsg]; simp [hs], fun t h => ModelBase.has_insert.2 (Or.inl (ModelBase.has_insert.2 (Or.inl h))), fun t => Iff.rfl⟩
          rw [hsg]
          intro t ht
          simp at ht
          rcases ht with rfl | rfl
          · exact ⟨m0, n0, ModelBase.has_insert.2 (Or.inl (ModelBase.has_insert.2 (Or.inr rfl)))⟩
          · exact ⟨m1, n1, ModelBase.has_insert.2 (Or.inr rfl)⟩

theorem pair_spec (E : Env) (S : Sigs) (cause lhs prem : Nat) (new : Option (Nat × List Nat)) (st : St) (hl : Low st) :
    Step (fun _ => False) st (pair E S cause lhs prem new st).2 ∧
    (pair E S cause lhs prem new st).1.cause = cause ∧ (pair E S cause lhs prem new st).1.lhs = lhs ∧
    (pair E S cause lhs prem new st).1.prem = some prem ∧
    (S.Distinct → Adds st.base (pair E S cause lhs prem new st).2.base (pair E S cause lhs prem new st).1.sent) ∧
    (∀ s, Has st.base.white s → Has (pair E S cause lhs prem new st).2.base.white s) ∧
    Shape S (pair E S cause lhs prem new st).2.base new (pair E S cause lhs prem new st).1 := by
  obtain ⟨h1, h2, h3⟩ := pair_adds st.base (S.one cause lhs) (S.req cause lhs prem) (S.req' cause lhs prem) E.now st.next hl new
  have hs : ∀ b, (∀ e ∈ b.white, e.mdl < st.next + 2) → ∀ st' : St, st' = ⟨st.W, st.inputs, st.made, st.next + 2, b⟩ → Step (fun _ => False) st st' := by
    rintro b hb _ rfl
    exact ⟨by simp, fun _ _ => rfl, fun _ h => Or.inl h, ⟨fun _ => true, (mask_true _).symm, fun _ h => by cases h⟩, fun _ => hb, id⟩
  unfold pair
  dsimp only
  by_cases hcl : S.closed cause lhs prem = true
  · rw [if_neg (by simp [hcl])]
    cases hc : ModelBase.checkPair st.base st.next (S.one cause lhs) (st.next + 1) (S.req cause lhs prem) (S.req' cause lhs prem) E.now with
    | mk o b =>
      rw [hc] at h1 h3
      obtain ⟨x0, x1⟩ := o
      cases x1 with
      | none => exact ⟨hs _ h1 _ rfl, rfl, rfl, rfl, fun _ => h3, h3.white, rfl, Or.inl rfl⟩
      | some x1 =>
        dsimp only
        by_cases hx : x1 = st.next + 1
        · rw [if_pos hx]
          subst hx
          obtain ⟨y, rfl, hy1, hy2, hy3⟩ := h2 x0 b hc
          dsimp only
          by_cases hy : y = st.next
          · rw [if_pos hy, if_pos hy]
            refine ⟨hs _ h1 _ rfl, rfl, rfl, rfl, fun hd => hy2 hy (hd _ _ _).1, h3.white, rfl, Or.inr ⟨⟨_, List.append_assoc _ _ _, by simp [sigs], by simp⟩, hy1⟩⟩
          · rw [if_neg hy, if_neg hy]
            refine ⟨hs _ h1 _ rfl, rfl, rfl, rfl, fun _ => hy3 hy, h3.white, rfl, Or.inr ⟨⟨_, List.append_assoc _ _ _, by simp [sigs], by simp⟩, hy1⟩⟩
        · rw [if_neg hx]
          exact ⟨hs _ h1 _ rfl, rfl, rfl, rfl, fun _ => h3, h3.white, rfl, Or.inl rfl⟩
  · rw [if_pos (by simpa using hcl)]
    exact ⟨hs _ (fun e he => Nat.lt_of_lt_of_le (hl e he) (by omega)) _ rfl, rfl, rfl, rfl, fun _ => .refl _, fun _ h => h, rfl, Or.inl rfl⟩

/-! ## Making and finding states -/

/-- No input is an instance of a state. -/
def Flat (st : St) : Prop := ∀ i ∈ st.inputs, (st.W i.fact).inst = none

/-- `f` was looked at when a state of `o` was made for `c`. -/
def Hit (E : Env) (st : St) (c : Nat) (o : List Nat) (f : Nat) : Prop :=
  (f = c ∨ Meanwhile st.W E.tol c f) ∧ (Flat st → f ∈ o)

theorem make_spec {E : Env} {c : Nat} {st st' : St} {m : Option (Nat × List Nat)} (h : make E c st = some (m, st')) :
    st'.base = st.base ∧
    ((m = none ∧ st' = st) ∨ ∃ o, m = some (st.next, o) ∧ o ≠ [] ∧ Step (Hit E st c o) st st') := by
  unfold make at h
  by_cases hc : (E.isCmd c || E.isImdl c) = true
  · rw [if_pos hc] at h
    cases h
    exact ⟨rfl, Or.inl ⟨rfl, rfl⟩⟩
  · rw [if_neg hc, Option.map_eq_some_iff] at h
    obtain ⟨x, hx, h⟩ := h
    cases x with
    | none => cases h; exact ⟨rfl, Or.inl ⟨rfl, rfl⟩⟩
    | some x =>
      cases h
      obtain ⟨e, h1, h2, h3, -, h5, h6⟩ := makeState_inputs hx
      refine ⟨rfl, Or.inr ⟨x.objs, rfl, h5, by simp, fun f hf => ?_, fun f hf => ?_, ⟨e, h1, fun f hf => ⟨h2 f hf, fun hfl => h6 hfl f hf⟩⟩, fun hl y hy => Nat.lt_succ_of_lt (hl y hy), fun hs => ⟨?_, fun f s hf => ?_⟩⟩⟩
      · exact if_neg (Nat.ne_of_lt hf)
      · rcases List.mem_append.1 hf with hf | hf
        · exact Or.inl hf
        · rw [List.mem_singleton.1 hf]
          exact Or.inr ⟨Nat.le_refl _, by simp, x.inst, by simp, h3⟩
      · show (x.inputs.map Inp.fact).Nodup
        rw [h1, mask_fact]
        exact hs.1
      · by_cases hn : f = st.next
        · simp only [hn, if_true, Option.some.injEq] at hf
          rw [← hf, h3]
          simp
        · simp only [if_neg hn] at hf
          exact hs.2 f s hf

theorem findPart_made {W : World} {f c d : Nat} {s : Inst} (h : (W f).inst = some s) (hs : s.parts = []) :
    Extract.findPart W d f c = some none := by
  cases d <;> simp [Extract.findPart, h, hs, Extract.firstFound]

theorem findAll_mem {W : World} {c : Nat} {multiple : Bool} {l : List Nat} {r : List (Nat × Nat)}
    (h : Extract.findAll W c multiple l = some r) : ∀ x ∈ r, x.1 ∈ l ∧ Extract.findPart W 3 x.1 c ≠ some none := by
  induction l generalizing r with
  | nil => cases h; simp
  | cons f l ih =>
    unfold Extract.findAll at h
    cases hf : Extract.findPart W 3 f c with
    | none => rw [hf] at h; cases h
    | some y =>
      rw [hf, Option.bind_some] at h
      cases y with
      | none =>
        intro x hx
        exact ⟨List.mem_cons_of_mem _ (ih h x hx).1, (ih h x hx).2⟩
      | some p =>
        dsimp only at h
        cases multiple with
        | false =>
          simp only [Bool.false_eq_true, if_false, Option.some.injEq] at h
          subst h
          intro x hx
          rw [List.mem_singleton.1 hx]
          exact ⟨by simp, by rw [hf]; simp⟩
        | true =>
          rw [if_pos rfl, Option.map_eq_some_iff] at h
          obtain ⟨r', hr', rfl⟩ := h
          intro x hx
          rcases List.mem_cons.1 hx with rfl | hx
          · exact ⟨by simp, by rw [hf]; simp⟩
          · exact ⟨List.mem_cons_of_mem _ (ih hr' x hx).1, (ih hr' x hx).2⟩

/-- What is found was an input; what was made is not found. -/
theorem find_spec {E : Env} {c : Nat} {multiple : Bool} {st : St} {r : List Nat} (h : find E c multiple st = some r)
    (hm : ∀ f ∈ st.made, ∃ s, (st.W f).inst = some s ∧ s.parts = []) : ∀ g ∈ r, g ∈ st.inputs.map Inp.fact ∧ (st.W g).inst ≠ none := by
  unfold find at h
  split_ifs at h
  · cases h; simp
  · rw [Option.map_eq_some_iff] at h
    obtain ⟨l, hl, rfl⟩ := h
    intro g hg
    obtain ⟨x, hx, rfl⟩ := List.mem_map.1 hg
    obtain ⟨h1, h2⟩ := findAll_mem hl x hx
    refine ⟨?_, fun hn => h2 (by simp [Extract.findPart, hn])⟩
    rcases List.mem_append.1 h1 with h1 | h1
    · exact h1
    · obtain ⟨s, hs, hp⟩ := hm _ h1
      exact absurd (findPart_made hs hp) h2

theorem findOrMake_spec {E : Env} {c : Nat} {multiple : Bool} {st st' : St} {r : List Nat} {new : Option (Nat × List Nat)}
    (h : findOrMake E c multiple st = some ((r, new), st'))
    (hm : ∀ f ∈ st.made, ∃ s, (st.W f).inst = some s ∧ s.parts = []) :
    st'.base = st.base ∧
    ((new = none ∧ st' = st ∧ ∀ g ∈ r, g ∈ st.inputs.map Inp.fact ∧ (st.W g).inst ≠ none) ∨
      ∃ o, new = some (st.next, o) ∧ r = [st.next] ∧ o ≠ [] ∧ Step (Hit E st c o) st st') := by
  unfold findOrMake at h
  cases hf : find E c multiple st with
  | none => rw [hf] at h; cases h
  | some x =>
    rw [hf, Option.bind_some] at h
    by_cases hx : x ≠ []
    · rw [if_pos hx] at h
      cases h
      exact ⟨rfl, Or.inl ⟨rfl, rfl, find_spec hf hm⟩⟩
    · rw [if_neg hx, Option.map_eq_some_iff] at h
      obtain ⟨⟨m, st1⟩, hmk, h⟩ := h
      obtain ⟨hb, h1⟩ := make_spec hmk
      rcases h1 with ⟨rfl, rfl⟩ | ⟨o, rfl, ho, hs⟩
      · cases h
        exact ⟨rfl, Or.inl ⟨rfl, rfl, by simp⟩⟩
      · cases h
        exact ⟨hb, Or.inr ⟨o, rfl, rfl, ho, hs⟩⟩

/-! ## Loops -/

theorem each_inv {f : St → Inp → Option (List Try × St)} (Q : Nat → List Try → St → Prop) (len : Nat)
    (hlen : ∀ k us st, Q k us st → st.inputs.length = len)
    (hstep : ∀ k us st i ts st', Q k us st → st.inputs[k]? = some i → f st i = some (ts, st') → Q (k + 1) (us ++ ts) st')
    (n k : Nat) (us : List Try) (st : St) (ts : List Try) (st' : St) (hQ : Q k us st) (hn : n + k = len)
    (h : each f n k st = some (ts, st')) : Q len (us ++ ts) st' := by
  induction n generalizing k us st ts with
  | zero =>
    cases h
    rw [List.append_nil, ← hn, Nat.zero_add]
    exact hQ
  | succ n ih =>
    have hl := hlen k us st hQ
    unfold each at h
    rw [List.getElem?_eq_getElem (show k < st.inputs.length by omega)] at h
    dsimp only at h
    cases hf : f st st.inputs[k] with
    | none => rw [hf] at h; cases h
    | some x =>
      obtain ⟨t1, st1⟩ := x
      rw [hf] at h
      dsimp only at h
      cases hr : each f n (k + 1) st1 with
      | none => rw [hr] at h; cases h
      | some y =>
        obtain ⟨t2, st2⟩ := y
        rw [hr] at h
        cases h
        rw [← List.append_assoc]
        exact ih (k + 1) (us ++ t1) st1 t2 (hstep k us st _ t1 st1 hQ (List.getElem?_eq_getElem _) hf) (by omega) hr

theorem each_total {f : St → Inp → Option (List Try × St)} (Q : St → Prop)
    (hstep : ∀ st i, Q st → i ∈ st.inputs → ∃ ts st', f st i = some (ts, st') ∧ Q st') (n k : Nat) (st : St) (hQ : Q st) :
    ∃ ts st', each f n k st = some (ts, st') := by
  induction n generalizing k st with
  | zero => exact ⟨_, _, rfl⟩
  | succ n ih =>
    unfold each
    cases hi : st.inputs[k]? with
    | none => exact ⟨_, _, rfl⟩
    | some i =>
      obtain ⟨ts, st', h, hQ'⟩ := hstep st i hQ (List.mem_of_getElem? hi)
      obtain ⟨us, st'', h'⟩ := ih (k + 1) st' hQ'
      simp only [h, h']
      exact ⟨_, _, rfl⟩

/-! ## Totality -/

theorem filterParts_total {S : List Nat} (hS : S.Nodup) (D : Nat → Bool) (parts : List Nat) (index : Nat) (hi : index < S.length) :
    ∃ D', Extract.filterParts parts index (Extract.comps S D) = some (Extract.comps S D') := by
  have hl := Extract.found_length S hS D parts
  unfold Extract.filterParts
  simp only
  rw [if_neg (by omega)]
  by_cases h0 : (Extract.found parts (Extract.comps S D)).length > 0
  · rw [if_pos h0, Extract.foldl_mark hS _ (fun k hk => by
      obtain ⟨x, hx, -⟩ := Extract.mem_found.1 hk
      exact (List.getElem?_eq_some_iff.1 hx).1)]
    exact ⟨_, rfl⟩
  · rw [if_neg h0, if_pos (by simpa [Extract.comps] using hi), Extract.mark_comps hS D (List.getElem?_eq_getElem hi)]
    exact ⟨_, rfl⟩

theorem filterAll_total (W : World) {S : List Nat} (hS : S.Nodup) (ks : List Nat) (j : Nat) (D : Nat → Bool)
    (hk : ∀ k ∈ ks, k < S.length) (hj : j + ks.length ≤ S.length) :
    ∃ l, Extract.filterAll W j ks (Extract.comps S D) = some l := by
  induction ks generalizing j D with
  | nil => exact ⟨_, rfl⟩
  | cons k ks ih =>
    have hkl := hk k (by simp)
    rw [List.length_cons] at hj
    obtain ⟨D', hD'⟩ := filterParts_total hS D (Extract.partsOf W S[k]) j (by omega)
    obtain ⟨l, hl⟩ := ih (j + 1) D' (fun x hx => hk x (by simp [hx])) (by omega)
    refine ⟨l, ?_⟩
    unfold Extract.filterAll
    rw [Extract.comps_get, List.getElem?_eq_getElem hkl]
    simp only [Option.map_some]
    rw [hD', Option.bind_some, hl]

theorem makeState_total (W : World) (tol : Int) (c : Nat) (is : List Inp) (h : (is.map Inp.fact).Nodup) :
    ∃ r, Extract.makeState W tol c is = some r := by
  obtain ⟨ks, hg, hks⟩ := Extract.gather_spec W tol c is [] [] (by simp [Extract.insts])
  simp only [List.nil_append] at hg hks
  change Extract.gather W tol c is [] [] = _ at hg
  have hS : (Extract.together W tol c is).Nodup := h.filter _
  obtain ⟨l, hl⟩ := filterAll_total W hS ks 0 (fun _ => false) (by
    intro k hk
    have : (Extract.together W tol c is)[k]? ∈ (Extract.insts W c (Extract.together W tol c is)).map some :=
      hks ▸ List.mem_map.2 ⟨k, hk, rfl⟩
    obtain ⟨y, -, hy⟩ := List.mem_map.1 this
    exact (List.getElem?_eq_some_iff.1 hy.symm).1) (by
    have := congrArg List.length hks
    simp only [List.length_map] at this
    rw [this, Nat.zero_add]
    exact List.length_filter_le _ _)
  unfold Extract.makeState
  rw [hg]
  dsimp only
  rw [hl]
  exact ⟨_, rfl⟩

theorem firstFound_total (f : Nat → Option (Option Nat)) (l : List Nat) (h : ∀ x, ∃ y, f x = some y) :
    ∃ y, Extract.firstFound f l = some y := by
  induction l with
  | nil => exact ⟨_, rfl⟩
  | cons x l ih =>
    obtain ⟨y, hy⟩ := h x
    unfold Extract.firstFound
    rw [hy, Option.bind_some]
    cases y with
    | none => exact ih
    | some p => exact ⟨_, rfl⟩

theorem findPart_total (W : World) (h : ∀ f s, (W f).inst = some s → s.parts.length ≤ s.pats.length) (d f c : Nat) :
    ∃ r, Extract.findPart W d f c = some r := by
  have key : ∀ f s, (W f).inst = some s → ∀ k, s.parts.findIdx? (· == c) = some k → ∃ r, (s.pats[k]?).map some = some r := by
    intro f s hs k hk
    have h1 := (List.findIdx?_eq_some_iff_findIdx_eq.1 hk).1
    have := h f s hs
    rw [List.getElem?_eq_getElem (by omega)]
    exact ⟨_, rfl⟩
  induction d generalizing f with
  | zero =>
    unfold Extract.findPart
    cases hi : (W f).inst with
    | none => exact ⟨_, rfl⟩
    | some s =>
      dsimp only
      cases hx : s.parts.findIdx? (· == c) with
      | none => exact ⟨_, rfl⟩
      | some k => exact key f s hi k hx
  | succ d ih =>
    unfold Extract.findPart
    cases hi : (W f).inst with
    | none => exact ⟨_, rfl⟩
    | some s =>
      dsimp only
      cases hx : s.parts.findIdx? (· == c) with
      | none => exact firstFound_total _ _ fun x => ih x
      | some k => exact key f s hi k hx

theorem findAll_total (W : World) (h : ∀ f s, (W f).inst = some s → s.parts.length ≤ s.pats.length) (c : Nat)
    (multiple : Bool) (l : List Nat) : ∃ r, Extract.findAll W c multiple l = some r := by
  induction l with
  | nil => exact ⟨_, rfl⟩
  | cons f l ih =>
    obtain ⟨r, hr⟩ := findPart_total W h 3 f c
    obtain ⟨r', hr'⟩ := ih
    unfold Extract.findAll
    rw [hr, Option.bind_some]
    cases r with
    | none => exact ⟨r', hr'⟩
    | some p =>
      dsimp only
      cases multiple with
      | false => exact ⟨_, rfl⟩
      | true => rw [if_pos rfl, hr']; exact ⟨_, rfl⟩

theorem make_total (E : Env) (c : Nat) (st : St) (h : Sane st) : ∃ m st', make E c st = some (m, st') := by
  unfold make
  split_ifs
  · exact ⟨_, _, rfl⟩
  · obtain ⟨r, hr⟩ := makeState_total st.W E.tol c st.inputs h.1
    rw [hr]
    cases r <;> exact ⟨_, _, rfl⟩

theorem find_total (E : Env) (c : Nat) (multiple : Bool) (st : St) (h : Sane st) : ∃ r, find E c multiple st = some r := by
  unfold find
  split_ifs
  · exact ⟨_, rfl⟩
  · obtain ⟨r, hr⟩ := findAll_total st.W h.2 c multiple (st.inputs.map Inp.fact ++ st.made)
    rw [hr]
    exact ⟨_, rfl⟩

theorem findOrMake_total (E : Env) (c : Nat) (multiple : Bool) (st : St) (h : Sane st) :
    ∃ r new st', findOrMake E c multiple st = some ((r, new), st') := by
  obtain ⟨r, hr⟩ := find_total E c multiple st h
  obtain ⟨m, st', hm⟩ := make_total E c st h
  unfold findOrMake
  rw [hr, Option.bind_some]
  by_cases hx : r ≠ []
  · rw [if_pos hx]; exact ⟨_, _, _, rfl⟩
  · rw [if_neg hx, hm]
    cases m <;> exact ⟨_, _, _, rfl⟩

/-! ## Rounds -/

/-- What `News` says of one attempt. -/
structure Good (S : Sigs) (n : Nat) (b' : Base) (t : Try) : Prop where
  grounded : t.sent ≠ [] → Has b'.white (S.one t.cause t.lhs)
  state : ∀ f o, .state f o ∈ t.sent → (t.lhs = f ∨ t.prem = some f) ∧ sigs t.sent ≠ []
  about : t.sent ≠ [] → ∀ f, f = t.lhs ∨ t.prem = some f → f < n ∨ ∃ o, t.sent.head? = some (.state f o)

theorem Good.mono {S : Sigs} {n : Nat} {b b' : Base} {t : Try} (h : Good S n b t) (hw : ∀ s, Has b.white s → Has b'.white s) :
    Good S n b' t := ⟨fun hs => hw _ (h.grounded hs), h.state, h.about⟩

theorem Good.idle {S : Sigs} {n : Nat} {b : Base} {t : Try} (h : t.sent = []) : Good S n b t :=
  ⟨fun hs => absurd h hs, by rw [h]; simp, fun hs => absurd h hs⟩

theorem Shape.good {S : Sigs} {n : Nat} {b : Base} {t : Try} {new : Option (Nat × List Nat)} (h : Shape S b new t)
    (h1 : ∀ f, f = t.lhs ∨ t.prem = some f → f < n ∨ ∃ o, new = some (f, o))
    (h2 : ∀ f o, new = some (f, o) → t.lhs = f ∨ t.prem = some f) : Good S n b t := by
  rcases h.sent with hs | ⟨⟨ms, hs, hm, hn⟩, hg⟩
  · exact .idle hs
  · have hsg : sigs t.sent ≠ [] := by
      rw [hs, sigs_append, sigs_states]
      exact hm
    refine ⟨fun _ => hg, fun f o hf => ⟨?_, hsg⟩, fun _ f hf => ?_⟩
    · rw [hs, List.mem_append] at hf
      rcases hf with hf | hf
      · cases new with
        | none => cases hf
        | some x =>
          have : f = x.1 ∧ o = x.2 := by simpa [states] using hf
          exact h2 f o (by rw [this.1, this.2])
      · exact absurd hf (hn f o)
    · rcases h1 f hf with h | ⟨o, h⟩
      · exact Or.inl h
      · refine Or.inr ⟨o, ?_⟩
        rw [hs, h]
        rfl

/-- One round of a loop, for input `i`, in which states were made for `key t`. -/
structure Round (E : Env) (S : Sigs) (n : Nat) (key : Try → Nat) (st : St) (c : Nat) (ts : List Try) (st' : St) : Prop where
  step : Step (fun f => ∃ t ∈ ts, t.new ≠ [] ∧ Hit E st (key t) t.new f) st st'
  adds : S.Distinct → Adds st.base st'.base (all ts)
  white : ∀ s, Has st.base.white s → Has st'.base.white s
  good : ∀ t ∈ ts, Good S n st'.base t
  cause : ∀ t ∈ ts, t.cause = c

theorem Round.idle (E : Env) (S : Sigs) (n : Nat) (key : Try → Nat) (st : St) (c : Nat) : Round E S n key st c [] st :=
  ⟨(Step.refl st).mono fun _ h => h.elim, fun _ => .refl _, fun _ h => h, by simp, by simp⟩

theorem all_one (t : Try) : all [t] = t.sent := by simp [all]
theorem all_cons (t : Try) (ts : List Try) : all (t :: ts) = t.sent ++ all ts := by simp [all]
theorem all_append (ts us : List Try) : all (ts ++ us) = all ts ++ all us := by simp [all]

theorem Round.nothing (E : Env) (S : Sigs) (n : Nat) (key : Try → Nat) (st : St) (c lhs : Nat) :
    Round E S n key st c [⟨c, lhs, none, [], []⟩] st :=
  ⟨(Step.refl st).mono fun _ h => h.elim, fun _ => by rw [all_one]; exact .refl _, fun _ h => h, by
    intro t ht
    rw [List.mem_singleton.1 ht]
    exact .idle rfl, by simp⟩

theorem single_same (E : Env) (S : Sigs) (cause lhs : Nat) (new : Option (Nat × List Nat)) (st : St) :
    (single E S cause lhs new st).2.W = st.W ∧ (single E S cause lhs new st).2.inputs = st.inputs ∧
    (single E S cause lhs new st).2.made = st.made := by
  unfold single
  dsimp only
  split <;> exact ⟨rfl, rfl, rfl⟩

theorem several_same (E : Env) (S : Sigs) (cause : Nat) (new : Option (Nat × List Nat)) (l : List Nat) (st : St) :
    (several E S cause new l st).2.W = st.W ∧ (several E S cause new l st).2.inputs = st.inputs ∧
    (several E S cause new l st).2.made = st.made := by
  induction l generalizing st with
  | nil => exact ⟨rfl, rfl, rfl⟩
  | cons f fs ih =>
    unfold several
    dsimp only
    rw [(ih _).1, (ih _).2.1, (ih _).2.2]
    exact single_same E S cause f new st

theorem objs_some (f : Nat) (o : List Nat) : objs (some (f, o)) = o := rfl

theorem several_spec (E : Env) (S : Sigs) (cause : Nat) (new : Option (Nat × List Nat)) (l : List Nat) (st : St) (hl : Low st) (n : Nat)
    (h1 : ∀ f ∈ l, f < n ∨ ∃ o, new = some (f, o)) (h2 : ∀ f o, new = some (f, o) → ∀ g ∈ l, g = f) :
    Step (fun _ => False) st (several E S cause new l st).2 ∧
    Adds st.base (several E S cause new l st).2.base (all (several E S cause new l st).1) ∧
    (∀ t ∈ (several E S cause new l st).1, Good S n (several E S cause new l st).2.base t ∧ t.cause = cause ∧ t.new = objs new) ∧
    ((several E S cause new l st).1 = [] → l = []) := by
  induction l generalizing st with
  | nil => exact ⟨.refl _, .refl _, by simp [several], fun _ => rfl⟩
  | cons f fs ih =>
    unfold several
    dsimp only
    obtain ⟨hs, hc, hlh, hp, ha, hsh⟩ := single_spec E S cause f new st hl
    obtain ⟨ks, ka, kg, -⟩ := ih (single E S cause f new st).2 (hs.low hl) (fun g hg => h1 g (by simp [hg])) (fun g o hg x hx => h2 g o hg x (by simp [hx]))
    refine ⟨hs.trans ks (fun _ h => h) (fun _ h => h), ?_, ?_, fun h => by cases h⟩
    · rw [all_cons]
      exact ha.trans ka
    · intro t ht
      rcases List.mem_cons.1 ht with rfl | ht
      · refine ⟨(hsh.good (n := n) ?_ ?_).mono ka.white, hc, hsh.objs⟩
        · rw [hlh, hp]
          rintro g (rfl | h)
          · exact h1 g (by simp)
          · cases h
        · intro g o hg
          rw [hlh]
          exact Or.inl (h2 g o hg f (by simp))
      · exact kg t ht

/-- A round with one attempt, for what was found or made. -/
theorem Round.one {E : Env} {S : Sigs} {n c : Nat} {key : Try → Nat} {st st1 : St} {lhs : Nat} {new : Option (Nat × List Nat)}
    {p : Nat} (hst : Step (fun f => ∃ g o, new = some (g, o) ∧ o ≠ [] ∧ Hit E st p o f) st st1) (hb : st1.base = st.base) (hlow : Low st)
    (hl : lhs < n ∨ ∃ o, new = some (lhs, o)) (hnew : ∀ f o, new = some (f, o) → lhs = f)
    (hkey : key (single E S c lhs new st1).1 = p) :
    Round E S n key st c [(single E S c lhs new st1).1] (single E S c lhs new st1).2 := by
  obtain ⟨hs, hc, hlh, hp, ha, hsh⟩ := single_spec E S c lhs new st1 (hst.low hlow)
  refine ⟨hst.trans hs ?_ (fun _ h => h.elim), fun _ => ?_, fun s hs => ha.white s (hb ▸ hs), ?_, ?_⟩
  · rintro f ⟨g, o, rfl, ho, hit⟩
    refine ⟨_, List.mem_singleton.2 rfl, ?_, ?_⟩
    · rw [hsh.objs]; exact ho
    · rw [hkey, hsh.objs]; exact hit
  · rw [all_one, ← hb]; exact ha
  · intro t ht
    rw [List.mem_singleton.1 ht]
    refine hsh.good ?_ ?_
    · rw [hlh, hp]
      rintro g (rfl | h)
      · exact hl
      · cases h
    · intro g o hg
      rw [hlh]
      exact Or.inl (hnew g o hg)
  · intro t ht
    rw [List.mem_singleton.1 ht]
    exact hc

/-- A round with one attempt that has a requirement. -/
theorem Round.two {E : Env} {S : Sigs} {n c : Nat} {key : Try → Nat} {st st1 : St} {lhs prem : Nat} {new : Option (Nat × List Nat)}
    {p : Nat} (hst : Step (fun f => ∃ g o, new = some (g, o) ∧ o ≠ [] ∧ Hit E st p o f) st st1) (hb : st1.base = st.base) (hlow : Low st)
    (hl : lhs < n) (hp : prem < n ∨ ∃ o, new = some (prem, o)) (hnew : ∀ f o, new = some (f, o) → prem = f)
    (hkey : key (pair E S c lhs prem new st1).1 = p) :
    Round E S n key st c [(pair E S c lhs prem new st1).1] (pair E S c lhs prem new st1).2 := by
  obtain ⟨hs, hc, hlh, hpr, ha, hw, hsh⟩ := pair_spec E S c lhs prem new st1 (hst.low hlow)
  refine ⟨hst.trans hs ?_ (fun _ h => h.elim), fun hd => ?_, fun s hs => hw s (hb ▸ hs), ?_, ?_⟩
  · rintro f ⟨g, o, rfl, ho, hit⟩
    refine ⟨_, List.mem_singleton.2 rfl, ?_, ?_⟩
    · rw [hsh.objs]; exact ho
    · rw [hkey, hsh.objs]; exact hit
  · rw [all_one, ← hb]; exact ha hd
  · intro t ht
    rw [List.mem_singleton.1 ht]
    refine hsh.good ?_ ?_
    · rw [hlh, hpr]
      rintro g (rfl | h)
      · exact Or.inl hl
      · cases h; exact hp
    · intro g o hg
      rw [hpr]
      exact Or.inr (by rw [hnew g o hg])
  · intro t ht
    rw [List.mem_singleton.1 ht]
    exact hc

/-- What all loops need to know about the state: nothing made is found, models known are numbered. -/
structure Fit (n : Nat) (st : St) : Prop where
  made : ∀ f ∈ st.made, ∃ s, (st.W f).inst = some s ∧ s.parts = []
  low : Low st
  inputs : ∀ f ∈ st.inputs.map Inp.fact, f < n

theorem change_round {E : Env} {S : Sigs} {n : Nat} {C : Change} {st st' : St} {i : Inp} {ts : List Try} (hf : Fit n st)
    (hi : i ∈ st.inputs) (h : C.round E S st i = some (ts, st')) :
    Round E S n (fun _ => C.target) st i.fact ts st' ∧ ts.map Try.cause = if C.cause E st.W i then [i.fact] else [] := by
  have hin := hf.inputs i.fact (List.mem_map.2 ⟨i, hi, rfl⟩)
  unfold Change.round at h
  cases hc : C.cause E st.W i with
  | false =>
    rw [hc] at h
    cases h
    exact ⟨.idle _ _ _ _ _ _, rfl⟩
  | true =>
    rw [hc, if_neg (by simp)] at h
    cases hfi : find E i.fact false st with
    | none => rw [hfi] at h; cases h
    | some r =>
      rw [hfi, Option.bind_some] at h
      have hlhs : r.headD i.fact < n := by
        cases r with
        | nil => exact hin
        | cons a r => exact hf.inputs a (find_spec hfi hf.made a (by simp)).1
      unfold Change.requirement at h
      rw [Option.map_eq_some_iff] at h
      obtain ⟨⟨⟨q, new⟩, st1⟩, hfm, h⟩ := h
      obtain ⟨hb, hcase⟩ := findOrMake_spec hfm hf.made
      cases q with
      | nil =>
        cases h
        rcases hcase with ⟨-, rfl, -⟩ | ⟨o, -, h, -⟩
        · exact ⟨.nothing _ _ _ _ _ _ _, rfl⟩
        · cases h
      | cons p ps =>
        dsimp only at h
        cases h
        have hcause := fun hl => (pair_spec E S i.fact (r.headD i.fact) p new st1 hl).2.1
        rcases hcase with ⟨rfl, rfl, hq⟩ | ⟨o, rfl, hq, ho, hst⟩
        · refine ⟨.two (p := C.target) ((Step.refl st1).mono fun _ h => h.elim) rfl hf.low hlhs (Or.inl (hf.inputs p (hq p (by simp)).1)) (by simp) rfl, ?_⟩
          simp only [List.map_cons, List.map_nil, hcause hf.low, if_true]
        · cases hq
          refine ⟨.two (p := C.target) (hst.mono fun f hh => ⟨_, o, rfl, ho, hh⟩) hb hf.low hlhs (Or.inr ⟨o, rfl⟩) (fun f x hx => by cases hx; rfl) rfl, ?_⟩
          simp only [List.map_cons, List.map_nil, hcause (hst.low hf.low), if_true]

theorem success_round {E : Env} {S : Sigs} {n : Nat} {C : Success} {st st' : St} {i : Inp} {ts : List Try} (hf : Fit n st)
    (hi : i ∈ st.inputs) (h : C.round E S st i = some (ts, st')) :
    Round E S n Try.cause st i.fact ts st' ∧ ts.map Try.cause = if C.cause E st.W i then [i.fact] else [] := by
  have hin := hf.inputs i.fact (List.mem_map.2 ⟨i, hi, rfl⟩)
  unfold Success.round at h
  cases hc : C.cause E st.W i with
  | false =>
    rw [hc] at h
    cases h
    exact ⟨.idle _ _ _ _ _ _, rfl⟩
  | true =>
    rw [hc, if_neg (by simp)] at h
    have hcause := fun lhs new st1 hl => (single_spec E S i.fact lhs new st1 hl).2.1
    cases hfm : findOrMake E i.fact false st with
    | none => rw [hfm] at h; cases h
    | some x =>
      obtain ⟨⟨q, new⟩, st1⟩ := x
      rw [hfm] at h
      obtain ⟨hb, hcase⟩ := findOrMake_spec hfm hf.made
      cases q with
      | nil =>
        rcases hcase with ⟨-, rfl, -⟩ | ⟨o, -, h, -⟩
        · dsimp only at h
          unfold Success.plain at h
          cases hanti : C.anti with
          | false =>
            rw [hanti, if_neg (by simp)] at h
            cases h
            refine ⟨.one (p := i.fact) ((Step.refl st1).mono fun _ h => h.elim) rfl hf.low (Or.inl hin) (by simp) (hcause _ _ _ hf.low), ?_⟩
            simp only [List.map_cons, List.map_nil, hcause _ _ _ hf.low, if_true]
          | true =>
            rw [hanti, if_pos rfl] at h
            cases hfa : findOrMake E C.aim false st1 with
            | none => rw [hfa] at h; cases h
            | some y =>
              obtain ⟨⟨q', new'⟩, st2⟩ := y
              rw [hfa] at h
              cases q' with
              | cons => cases h
              | nil =>
                cases h
                rcases (findOrMake_spec hfa hf.made).2 with ⟨-, rfl, -⟩ | ⟨o, -, h, -⟩
                · exact ⟨.nothing _ _ _ _ _ _ _, rfl⟩
                · cases h
        · cases h
      | cons p ps =>
        dsimp only at h
        cases h
        rcases hcase with ⟨rfl, rfl, hq⟩ | ⟨o, rfl, hq, ho, hst⟩
        · refine ⟨.one (p := i.fact) ((Step.refl st1).mono fun _ h => h.elim) rfl hf.low (Or.inl (hf.inputs p (hq p (by simp)).1)) (by simp) (hcause _ _ _ hf.low), ?_⟩
          simp only [List.map_cons, List.map_nil, hcause _ _ _ hf.low, if_true]
        · cases hq
          refine ⟨.one (p := i.fact) (hst.mono fun f hh => ⟨_, o, rfl, ho, hh⟩) hb hf.low (Or.inr ⟨o, rfl⟩) (fun f x hx => by cases hx; rfl) (hcause _ _ _ (hst.low hf.low)), ?_⟩
          simp only [List.map_cons, List.map_nil, hcause _ _ _ (hst.low hf.low), if_true]

theorem failure_round {E : Env} {S : Sigs} {n : Nat} {st st' : St} {i : Inp} {ts : List Try} (hf : Fit n st)
    (hi : i ∈ st.inputs) (h : Failure.round E S st i = some (ts, st')) :
    Round E S n Try.cause st i.fact ts st' ∧ (ts = [] ↔ ¬ ((st.W i.fact).inst = none ∧ i.eligible = true)) := by
  have hin := hf.inputs i.fact (List.mem_map.2 ⟨i, hi, rfl⟩)
  unfold Failure.round at h
  cases hc : ((st.W i.fact).inst.isNone && i.eligible) with
  | false =>
    rw [hc] at h
    cases h
    refine ⟨.idle _ _ _ _ _ _, iff_of_true rfl fun hh => ?_⟩
    rw [hh.1, hh.2] at hc
    cases hc
  | true =>
    rw [hc, if_neg (by simp)] at h
    simp only [Bool.and_eq_true, Option.isNone_iff_eq_none] at hc
    have hcause := fun lhs new st1 hl => (single_spec E S i.fact lhs new st1 hl).2.1
    cases hfm : findOrMake E i.fact true st with
    | none => rw [hfm] at h; cases h
    | some x =>
      obtain ⟨⟨q, new⟩, st1⟩ := x
      rw [hfm] at h
      obtain ⟨hb, hcase⟩ := findOrMake_spec hfm hf.made
      cases q with
      | nil =>
        rcases hcase with ⟨-, rfl, -⟩ | ⟨o, -, h, -⟩
        · cases h
          refine ⟨.one (p := i.fact) ((Step.refl st1).mono fun _ h => h.elim) rfl hf.low (Or.inl hin) (by simp) (hcause _ _ _ hf.low), ?_⟩
          exact iff_of_false (by simp) (fun h => h hc)
        · cases h
      | cons p ps =>
        dsimp only at h
        rcases hcase with ⟨rfl, rfl, hq⟩ | ⟨o, rfl, hq, ho, hst⟩
        · rw [if_neg (by simp)] at h
          obtain ⟨ss, sa, sg, sn⟩ := several_spec E S i.fact none (p :: ps) st1 hf.low n (fun f hfm => Or.inl (hf.inputs f (hq f hfm).1)) (by simp)
          obtain ⟨w1, w2, w3⟩ := several_same E S i.fact none (p :: ps) st1
          generalize several E S i.fact none (p :: ps) st1 = x at *
          obtain ⟨us, st2⟩ := x
          dsimp only at *
          cases hmk : make E i.fact st2 with
          | none => rw [hmk] at h; cases h
          | some y =>
            obtain ⟨m, st3⟩ := y
            rw [hmk] at h
            obtain ⟨hb3, hm⟩ := make_spec hmk
            rcases hm with ⟨rfl, rfl⟩ | ⟨o, rfl, ho, hst⟩
            · cases h
              refine ⟨⟨ss.mono fun _ h => h.elim, fun _ => sa, sa.white, fun t ht => (sg t ht).1, fun t ht => (sg t ht).2.1⟩, ?_⟩
              exact iff_of_false (fun hn => by cases sn hn) (fun h => h hc)
            · cases h
              obtain ⟨ys, yc, yl, yp, ya, ysh⟩ := single_spec E S i.fact st2.next (some (st2.next, o)) st3 (hst.low (ss.low hf.low))
              refine ⟨⟨?_, fun _ => ?_, fun s hs => ya.white s (hb3 ▸ sa.white s hs), ?_, ?_⟩, iff_of_false (by simp) (fun h => h hc)⟩
              · refine (ss.trans (hst.trans ys (R := fun f => Hit E st1 i.fact o f) (fun f hh => ?_) (fun _ h => h.elim)) (R := fun f => Hit E st1 i.fact o f)
                  (fun _ h => h.elim) (fun _ h => h)).mono fun f hh => ?_
                · unfold Hit Flat at hh ⊢
                  rw [w1, w2] at hh
                  exact hh
                · refine ⟨_, List.mem_append_right _ (List.mem_singleton.2 rfl), ?_, ?_⟩
                  · rw [ysh.objs]; exact ho
                  · rw [yc, ysh.objs]; exact hh
              · rw [all_append, all_one]
                exact sa.trans (hb3 ▸ ya)
              · intro t ht
                rcases List.mem_append.1 ht with ht | ht
                · exact (sg t ht).1.mono fun s hs => ya.white s (hb3 ▸ hs)
                · rw [List.mem_singleton.1 ht]
                  refine ysh.good ?_ ?_
                  · rw [yl, yp]
                    rintro g (rfl | h)
                    · exact Or.inr ⟨o, rfl⟩
                    · cases h
                  · intro g x hg
                    cases hg
                    exact Or.inl yl
              · intro t ht
                rcases List.mem_append.1 ht with ht | ht
                · exact (sg t ht).2.1
                · rw [List.mem_singleton.1 ht]
                  exact yc
        · cases hq
          rw [if_pos (by rfl)] at h
          obtain ⟨ss, sa, sg, sn⟩ := several_spec E S i.fact (some (st.next, o)) [st.next] st1 (hst.low hf.low) n
            (fun f hfm => Or.inr ⟨o, by rw [List.mem_singleton.1 hfm]⟩) (fun f x hx g hg => by cases hx; exact List.mem_singleton.1 hg)
          generalize several E S i.fact (some (st.next, o)) [st.next] st1 = x at *
          obtain ⟨us, st2⟩ := x
          cases h
          have hne : ts ≠ [] := fun hn => by cases sn hn
          obtain ⟨t0, ht0⟩ := List.exists_mem_of_ne_nil _ hne
          refine ⟨⟨hst.trans ss (fun f hh => ⟨t0, ht0, ?_, ?_⟩) (fun _ h => h.elim), fun _ => hb ▸ sa, fun s hs => sa.white s (hb ▸ hs), fun t ht => (sg t ht).1, fun t ht => (sg t ht).2.1⟩, ?_⟩
          · rw [(sg t0 ht0).2.2]; exact ho
          · rw [(sg t0 ht0).2.1, (sg t0 ht0).2.2]; exact hh
          · exact iff_of_false hne (fun h => h hc)

end Verif.Learn
