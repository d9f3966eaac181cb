import Verif.Icst.Spec
import Mathlib.Tactic.NormNum
/-!
# C156: the instance of a composite state is worth what its members are
-/
namespace Verif.Icst

theorem mem_insert {l : List Nat} {x y : Nat} : y ∈ insert l x ↔ y ∈ l ∨ y = x := by
  by_cases h : l.contains x = true
  · rw [insert, if_pos h]
    exact ⟨.inl, fun e => e.elim id fun e => e ▸ List.contains_iff_mem.mp h⟩
  · rw [insert, if_neg h]; simp

theorem mem_inserts {y : Nat} : ∀ {xs l : List Nat}, y ∈ xs.foldl insert l ↔ y ∈ l ∨ y ∈ xs
  | [], l => by simp
  | x :: xs, l => by rw [List.foldl_cons, mem_inserts (xs := xs), mem_insert, List.mem_cons, or_assoc]

theorem has_iff {S : Sims} {l : List Nat} {r : Nat} : has S l r = true ↔ ∃ s ∈ l, S.root s = r := by simp [has]

theorem addSims_ok {S : Sims} : ∀ (xs acc : List Nat), (∀ s ∈ xs, ∃ r, S.top s = some r ∧ S.root r = S.root s) →
    ∃ l, addSims S acc xs = some l ∧ (∀ s ∈ l, s ∈ acc ∨ s ∈ xs) ∧ (∀ s ∈ acc, s ∈ l) ∧ ∀ s ∈ xs, ∃ s' ∈ l, S.root s' = S.root s
  | [], acc, _ => ⟨acc, rfl, fun _ h => .inl h, fun _ h => h, (fun s h => by cases h)⟩
  | x :: xs, acc, h => by
    obtain ⟨r, r1, r2⟩ := h x (by simp)
    obtain ⟨l, h1, h2, h3, h4⟩ := addSims_ok xs (if has S acc (S.root r) then acc else insert acc x) fun s hs => h s (List.mem_cons_of_mem _ hs)
    have hx : ∃ s' ∈ (if has S acc (S.root r) then acc else insert acc x), S.root s' = S.root x := by
      by_cases e : has S acc (S.root r) = true
      · rw [if_pos e, ← r2]; exact has_iff.mp e
      · rw [if_neg e]; exact ⟨x, mem_insert.mpr (.inr rfl), rfl⟩
    have hsub : ∀ s ∈ acc, s ∈ (if has S acc (S.root r) then acc else insert acc x) := fun s hs => by
      split
      · exact hs
      · exact mem_insert.mpr (.inl hs)
    refine ⟨l, by simp only [addSims, r1, h1], fun s hs => ?_, fun s hs => h3 s (hsub s hs), fun s hs => ?_⟩
    · rcases h2 s hs with e | e
      · split at e
        · exact .inl e
        · rcases mem_insert.mp e with e | rfl
          · exact .inl e
          · exact .inr (by simp)
      · exact .inr (List.mem_cons_of_mem _ e)
    · rcases List.mem_cons.mp hs with rfl | hs
      · obtain ⟨s', a, b⟩ := hx
        exact ⟨s', h3 s' a, b⟩
      · exact h4 s hs

/-- What has been gathered from the inputs. -/
structure Inv (S : Sims) (is : List Input) (a : Acc) : Prop where
  ins : a.ins = is
  low : ∀ i ∈ is, a.lowest ≤ worth i
  one : a.lowest ≤ 1
  some_ : a.lowest = 1 ∨ ∃ i ∈ is, worth i = a.lowest
  preds : ∀ x, x ∈ a.preds ↔ ∃ i ∈ is, i.id = x ∧ i.pred ≠ none ∧ simsOf i = []
  within : ∀ s ∈ a.sims, ∃ i ∈ is, s ∈ simsOf i
  roots : ∀ i ∈ is, ∀ s ∈ simsOf i, ∃ s' ∈ a.sims, S.root s' = S.root s
  vals : ∀ v, v ∈ a.vals ↔ ∃ i ∈ is, ∃ p, i.pred = some p ∧ v ∈ p.vals

theorem update_inv {S : Sims} {is : List Input} {a : Acc} (h : Inv S is a) (i : Input)
    (hr : ∀ s ∈ simsOf i, ∃ r, S.top s = some r ∧ S.root r = S.root s) : ∃ a', update S a i = some a' ∧ Inv S (is ++ [i]) a' := by
  have l1 : ∀ c : Rat, (if c < a.lowest then c else a.lowest) ≤ c := fun c => by split <;> grind
  have l2 : ∀ c : Rat, (if c < a.lowest then c else a.lowest) ≤ a.lowest := fun c => by split <;> grind
  have lowest : ∀ c, worth i = c → (∀ j ∈ is ++ [i], (if c < a.lowest then c else a.lowest) ≤ worth j) ∧ (if c < a.lowest then c else a.lowest) ≤ 1 ∧
      ((if c < a.lowest then c else a.lowest) = 1 ∨ ∃ j ∈ is ++ [i], worth j = (if c < a.lowest then c else a.lowest)) := fun c hc => by
    refine ⟨fun j hj => ?_, Rat.le_trans (l2 c) h.one, ?_⟩
    · rcases List.mem_append.mp hj with hj | hj
      · exact Rat.le_trans (l2 c) (h.low j hj)
      · rw [List.mem_singleton.mp hj, hc]; exact l1 c
    · by_cases e : c < a.lowest
      · rw [if_pos e]; exact .inr ⟨i, by simp, hc⟩
      · rw [if_neg e]
        rcases h.some_ with x | ⟨j, x, y⟩
        · exact .inl x
        · exact .inr ⟨j, by simp [x], y⟩
  cases hp : i.pred with
  | none =>
    have w : worth i = i.cfd := by simp [worth, hp]
    have s : simsOf i = [] := by simp [simsOf, hp]
    refine ⟨_, by simp only [update, hp]; rfl, ⟨(by rw [← h.ins]), (lowest _ w).1, (lowest _ w).2.1, (lowest _ w).2.2, fun x => ?_, fun x hx => ?_, fun j hj x hx => ?_, fun v => ?_⟩⟩
    · show x ∈ a.preds ↔ _
      rw [h.preds x]; simp only [List.mem_append, List.mem_singleton]
      constructor
      · rintro ⟨j, a, b⟩; exact ⟨j, .inl a, b⟩
      · rintro ⟨j, a | rfl, b⟩
        · exact ⟨j, a, b⟩
        · exact absurd hp b.2.1
    · obtain ⟨j, a, b⟩ := h.within x hx
      exact ⟨j, by simp [a], b⟩
    · rcases List.mem_append.mp hj with hj | hj
      · exact h.roots j hj x hx
      · rw [List.mem_singleton.mp hj, s] at hx; cases hx
    · show v ∈ a.vals ↔ _
      rw [h.vals v]; simp only [List.mem_append, List.mem_singleton]
      constructor
      · rintro ⟨j, a, b⟩; exact ⟨j, .inl a, b⟩
      · rintro ⟨j, a | rfl, p, b, c⟩
        · exact ⟨j, a, p, b, c⟩
        · rw [hp] at b; cases b
  | some p =>
    have w : worth i = p.cfd := by simp [worth, hp]
    have s : simsOf i = p.sims := by simp [simsOf, hp]
    have hv : ∀ v, v ∈ p.vals.foldl insert a.vals ↔ ∃ j ∈ is ++ [i], ∃ q, j.pred = some q ∧ v ∈ q.vals := fun v => by
      rw [mem_inserts, h.vals v]
      simp only [List.mem_append, List.mem_singleton]
      constructor
      · rintro (⟨j, a, b⟩ | b)
        · exact ⟨j, .inl a, b⟩
        · exact ⟨i, .inr rfl, p, hp, b⟩
      · rintro ⟨j, a | rfl, q, b, c⟩
        · exact .inl ⟨j, a, q, b, c⟩
        · rw [hp] at b; cases b; exact .inr c
    by_cases hs : p.sims = []
    · refine ⟨_, by simp only [update, hp, hs, ne_eq, not_true, if_false]; rfl, ⟨(by rw [← h.ins]), (lowest _ w).1, (lowest _ w).2.1, (lowest _ w).2.2, fun x => ?_, fun x hx => ?_, fun j hj x hx => ?_, hv⟩⟩
      · show x ∈ insert a.preds i.id ↔ _
        rw [mem_insert, h.preds x]; simp only [List.mem_append, List.mem_singleton]
        constructor
        · rintro (⟨j, a, b⟩ | rfl)
          · exact ⟨j, .inl a, b⟩
          · exact ⟨i, .inr rfl, rfl, by simp [hp], by rw [s, hs]⟩
        · rintro ⟨j, a | rfl, b⟩
          · exact .inl ⟨j, a, b⟩
          · exact .inr b.1.symm
      · obtain ⟨j, a, b⟩ := h.within x hx
        exact ⟨j, by simp [a], b⟩
      · rcases List.mem_append.mp hj with hj | hj
        · exact h.roots j hj x hx
        · rw [List.mem_singleton.mp hj, s, hs] at hx; cases hx
    · obtain ⟨l, h1, h2, h3, h4⟩ := addSims_ok (S := S) p.sims a.sims (s ▸ hr)
      refine ⟨_, by simp only [update, hp, hs, ne_eq, not_false_eq_true, if_true, h1, Option.map_some]; rfl, ⟨(by rw [← h.ins]), (lowest _ w).1, (lowest _ w).2.1, (lowest _ w).2.2, fun x => ?_, fun x hx => ?_, fun j hj x hx => ?_, hv⟩⟩
      · show x ∈ a.preds ↔ _
        rw [h.preds x]; simp only [List.mem_append, List.mem_singleton]
        constructor
        · rintro ⟨j, a, b⟩; exact ⟨j, .inl a, b⟩
        · rintro ⟨j, a | rfl, b⟩
          · exact ⟨j, a, b⟩
          · rw [s] at b; exact absurd b.2.2 hs
      · rcases h2 x hx with e | e
        · obtain ⟨j, a, b⟩ := h.within x e
          exact ⟨j, by simp [a], b⟩
        · exact ⟨i, by simp, by rw [s]; exact e⟩
      · rcases List.mem_append.mp hj with hj | hj
        · obtain ⟨s', a, b⟩ := h.roots j hj x hx
          exact ⟨s', h3 s' a, b⟩
        · rw [List.mem_singleton.mp hj, s] at hx
          exact h4 x hx

theorem gather_inv {S : Sims} : ∀ (is js : List Input) (a : Acc), Inv S js a →
    (∀ i ∈ is, ∀ s ∈ simsOf i, ∃ r, S.top s = some r ∧ S.root r = S.root s) → ∃ a', gather S a is = some a' ∧ Inv S (js ++ is) a'
  | [], js, a, h, _ => ⟨a, rfl, by simpa using h⟩
  | i :: is, js, a, h, hr => by
    obtain ⟨a1, h1, h2⟩ := update_inv h i (hr i (by simp))
    obtain ⟨a2, h3, h4⟩ := gather_inv is (js ++ [i]) a1 h2 fun j hj => hr j (List.mem_cons_of_mem _ hj)
    exact ⟨a2, by simp only [gather, h1, h3], by simpa using h4⟩

theorem inv_start (S : Sims) : Inv S [] {} := by
  constructor
  case one => exact Rat.le_refl
  case some_ => exact .inl rfl
  all_goals simp

/-- What is lowest is the least. -/
theorem inv_least {S : Sims} {is : List Input} {a : Acc} (h : Inv S is a) (hn : is ≠ []) (hc : ∀ i ∈ is, worth i ≤ 1) : Least is a.lowest := by
  refine ⟨?_, h.low⟩
  rcases h.some_ with e | e
  · obtain ⟨i, is', rfl⟩ := List.exists_cons_of_ne_nil hn
    refine ⟨i, by simp, ?_⟩
    have h1 := h.low i (by simp)
    have h2 := hc i (by simp)
    rw [e] at h1 ⊢
    exact Rat.le_antisymm h2 h1
  · exact e

theorem least_unique {is : List Input} {x y : Rat} (h : Least is x) (k : Least is y) : x = y := by
  obtain ⟨⟨i, a, b⟩, c⟩ := h
  obtain ⟨⟨j, d, e⟩, f⟩ := k
  exact Rat.le_antisymm (e ▸ c j d) (b ▸ f i a)

/-- C156, without what is said of confidence, life and grounds. -/
theorem C156_core_partial {S : Sims} {c : Ctl} (now before : Int) {is : List Input} {last : Input} (hs : Sane S c (is ++ [last])) :
    ∃ m, complete S c now before is last = some m ∧ C156Core S c (is ++ [last]) m := by
  obtain ⟨a, h1, h2⟩ := gather_inv (is ++ [last]) [] {} (inv_start S) hs.roots
  rw [List.nil_append] at h2
  have hl := inv_least h2 (by simp) hs.cfd
  have hsims : a.sims = [] ↔ ∀ i ∈ is ++ [last], simsOf i = [] := by
    constructor
    · intro e i hi
      refine List.eq_nil_iff_forall_not_mem.mpr fun s hs => ?_
      obtain ⟨s', x, _⟩ := h2.roots i hi s hs
      rw [e] at x; cases x
    · intro e
      refine List.eq_nil_iff_forall_not_mem.mpr fun s hs => ?_
      obtain ⟨i, x, y⟩ := h2.within s hs
      rw [e i x] at y; cases y
  have hstand : ∀ (D : Dead) (m : Made), m.parts = is ++ [last] → (∀ s ∈ m.sims, s ∈ a.sims) → (∀ x ∈ m.grounds, x ∈ a.preds) → (∀ v ∈ m.vals, v ∈ a.vals) →
      (D.made false m = true ↔ ∃ i ∈ is ++ [last], D.input i = true) := fun D m p1 p2 p3 p4 => by
    constructor
    · intro h
      simp only [Dead.made, Bool.or_eq_true, Bool.false_eq_true, false_or, p1, List.any_eq_true] at h
      rcases h with ((⟨s, q1, q2⟩ | ⟨x, q1, q2⟩) | ⟨v, q1, q2⟩) | ⟨i, q1, q2⟩
      · obtain ⟨i, r1, r2⟩ := h2.within s (p2 s q1)
        refine ⟨i, r1, ?_⟩
        cases hp : i.pred with
        | none => simp [simsOf, hp] at r2
        | some p =>
          simp only [simsOf, hp] at r2
          simp only [Dead.input, hp, Bool.or_eq_true, List.any_eq_true]
          exact .inr (.inl ⟨s, r2, q2⟩)
      · cases hf : (is ++ [last]).find? (fun i => i.id == x) with
        | none => rw [hf] at q2; cases q2
        | some j => rw [hf] at q2; exact ⟨j, List.mem_of_find?_eq_some hf, q2⟩
      · obtain ⟨i, r1, p, r2, r3⟩ := (h2.vals v).mp (p4 v q1)
        refine ⟨i, r1, ?_⟩
        simp only [Dead.input, r2, Bool.or_eq_true, List.any_eq_true]
        exact .inr (.inr ⟨v, r3, q2⟩)
      · exact ⟨i, q1, q2⟩
    · rintro ⟨i, q1, q2⟩
      simp only [Dead.made, p1, Bool.or_eq_true, List.any_eq_true]
      exact .inr ⟨i, q1, q2⟩
  have hex : (∃ i ∈ is ++ [last], simsOf i ≠ []) ↔ ¬ a.sims = [] := by rw [hsims]; simp
  refine ⟨_, by simp only [complete, h1, Option.map_some]; rfl, ?_⟩
  by_cases e : a.sims = []
  · by_cases e' : a.preds = []
    · have hno : ∀ i ∈ is ++ [last], i.pred = none := fun i hi => by
        cases hp : i.pred with
        | none => rfl
        | some p =>
          have := (h2.preds i.id).mpr ⟨i, hi, rfl, by simp [hp], hsims.mp e i hi⟩
          rw [e'] at this; cases this
      simp only [produce, if_pos e, e', ne_eq, not_true, if_false]
      refine ⟨by rw [hex]; simp [e], ⟨(fun h => by cases h), fun ⟨⟨i, h3, h4⟩, _⟩ => absurd (hno i h3) h4⟩, by simp, fun i hi s hs => ?_, fun D => hstand D _ h2.ins (by simp) (by simp) (by simp), fun x hx => ?_⟩
      · rw [hsims.mp e i hi] at hs; cases hs
      · rw [least_unique hx hl]
        obtain ⟨g1, g2, g3⟩ := hs.groups
        refine ⟨?_, fun _ => ⟨?_, fun o ho => ?_⟩, fun h => absurd rfl h⟩
        · by_cases q : a.lowest > c.primary.thr <;> by_cases q' : a.lowest > c.secondary.thr <;> simp [injectFact, q, q', Ne.symm g1]
        · have n2 : ¬ ∃ o ∈ c.outs, o = c.secondary.id := by rintro ⟨o, a, rfl⟩; exact g3 a
          by_cases q : a.lowest > c.primary.thr <;> by_cases q' : a.lowest > c.secondary.thr <;> simp [injectFact, q, q', g1, g3]
        · have n1 : ¬ c.primary.id = o := fun e => g2 (e ▸ ho)
          have n2 : ¬ c.secondary.id = o := fun e => g3 (e ▸ ho)
          by_cases q : a.lowest > c.primary.thr <;> by_cases q' : a.lowest > c.secondary.thr <;> simp [injectFact, q, q', n1, n2, ho]
    · simp only [produce, if_pos e, ne_eq, e', not_false_eq_true, if_true]
      obtain ⟨x, xs, hx⟩ := List.exists_cons_of_ne_nil e'
      obtain ⟨i, i1, _, i2, _⟩ := (h2.preds x).mp (by rw [hx]; simp)
      refine ⟨by rw [hex]; simp [e], ⟨fun _ => ⟨⟨i, i1, i2⟩, hsims.mp e⟩, fun _ => rfl⟩, by simp, fun i hi s hs => ?_, fun D => hstand D _ h2.ins (by simp) (fun _ h => h) (by simp), fun y hy => ?_⟩
      · rw [hsims.mp e i hi] at hs; cases hs
      · rw [least_unique hy hl]
        refine ⟨?_, (fun h => by cases h), fun _ v hv => ?_⟩
        · by_cases q : a.lowest > c.primary.thr <;> simp [q]
        · split at hv
          · rw [List.mem_singleton.mp hv]
          · cases hv
  · simp only [produce, if_neg e]
    refine ⟨by rw [hex]; simp [e], ⟨(fun h => by cases h), fun h => absurd (hsims.mpr h.2) e⟩, h2.within, h2.roots, fun D => hstand D _ h2.ins (fun _ h => h) (by simp) (fun v hv => ?_), fun y hy => ?_⟩
    · simp only at hv
      split at hv
      · exact hv
      · cases hv
    · rw [least_unique hy hl]
      refine ⟨?_, (fun h => by cases h), fun _ v hv => ?_⟩
      · by_cases q : a.lowest > c.primary.thr <;> simp [q]
      · change v ∈ (if a.lowest > c.primary.thr then [⟨c.primary.id, a.lowest, 1⟩] else [] : List Shown) at hv
        split at hv
        · rw [List.mem_singleton.mp hv]
        · cases hv

/-- C156, of life and grounds: a fact lives until the end of the state; a prediction that is not in a simulation
rests on the predictions it was made from; one in a simulation has the validities, if the last input is a
prediction; both are as salient as the least certain input. -/
theorem C156_rest_partial {S : Sims} {c : Ctl} {now before : Int} {is : List Input} {last : Input} (hs : Sane S c (is ++ [last])) {m : Made}
    (hm : complete S c now before is last = some m) :
    (m.kind = .actual → ∀ v ∈ m.shown, v.grp = c.primary.id ∨ v.grp = c.secondary.id → ∃ g ∈ [c.primary, c.secondary], v.grp = g.id ∧
      v.res = Lifetime.viewRes c.ref c.base g.upr now (ttl now before)) ∧
    (m.kind = .predicted → ∀ x, x ∈ m.grounds ↔ ∃ i ∈ is ++ [last], i.id = x ∧ i.pred ≠ none) ∧
    (m.kind = .simulated → last.pred ≠ none → ∀ v, v ∈ m.vals ↔ ∃ i ∈ is ++ [last], ∃ p, i.pred = some p ∧ v ∈ p.vals) ∧
    (m.kind ≠ .actual → ∀ v ∈ m.shown, Least (is ++ [last]) v.sal) := by
  obtain ⟨a, h1, h2⟩ := gather_inv (is ++ [last]) [] {} (inv_start S) hs.roots
  rw [List.nil_append] at h2
  have hl := inv_least h2 (by simp) hs.cfd
  simp only [complete, h1, Option.map_some, Option.some.injEq] at hm
  subst hm
  by_cases e : a.sims = []
  · have hsims : ∀ i ∈ is ++ [last], simsOf i = [] := fun i hi => List.eq_nil_iff_forall_not_mem.mpr fun s hs => by
      obtain ⟨s', x, _⟩ := h2.roots i hi s hs
      rw [e] at x; cases x
    by_cases e' : a.preds = []
    · simp only [produce, if_pos e, e', ne_eq, not_true, if_false]
      refine ⟨fun _ v hv hg => ?_, (fun h => by cases h), (fun h => by cases h), fun h => h.elim⟩
      obtain ⟨g1, g2, g3⟩ := hs.groups
      rcases List.mem_append.mp hv with hv | hv
      · split at hv
        · rcases List.mem_cons.mp hv with rfl | hv
          · exact ⟨c.primary, by simp, rfl, rfl⟩
          · obtain ⟨o, o1, rfl⟩ := List.mem_map.mp hv
            rcases hg with hg | hg
            · exact absurd (hg ▸ o1) g2
            · exact absurd (hg ▸ o1) g3
        · cases hv
      · split at hv
        · rw [List.mem_singleton.mp hv]
          exact ⟨c.secondary, by simp, rfl, rfl⟩
        · cases hv
    · simp only [produce, if_pos e, ne_eq, e', not_false_eq_true, if_true]
      refine ⟨(fun h => by cases h), fun _ x => ?_, (fun h => by cases h), fun _ v hv => ?_⟩
      · rw [h2.preds x]
        exact ⟨fun ⟨i, a, b, c, _⟩ => ⟨i, a, b, c⟩, fun ⟨i, a, b, c⟩ => ⟨i, a, b, c, hsims i a⟩⟩
      · split at hv
        · rw [List.mem_singleton.mp hv]; exact hl
        · cases hv
  · simp only [produce, if_neg e]
    refine ⟨(fun h => by cases h), (fun h => by cases h), fun _ hp v => ?_, fun _ v hv => ?_⟩
    · rw [if_pos (Option.isSome_iff_ne_none.mpr hp)]; exact h2.vals v
    · split at hv
      · rw [List.mem_singleton.mp hv]; exact hl
      · cases hv

/-! ## Cases -/

/-- Every simulation is its own root. -/
def flat : Sims := ⟨fun s => s, some⟩

/-- Two groups, of thresholds 1/2 and 0, and an output group; a base period of 100 ms. -/
def ctl : Ctl := ⟨⟨1, 1/2, 1⟩, ⟨2, 0, 1⟩, [3], 0, 100000⟩

/-- A fact of confidence 3/4; a prediction of confidence 4/5; the same in a simulation; and with a validity. -/
def plain : Input := ⟨10, 3/4, none⟩
def guess : Input := ⟨11, 1, some ⟨4/5, [], [7]⟩⟩
def play : Input := ⟨12, 1, some ⟨4/5, [5], [8]⟩⟩

/-- The cases are sane. -/
theorem sane_of {is : List Input} (h1 : ∀ i ∈ is, worth i ≤ 1) (h2 : (is.map (·.id)).Nodup) : Sane flat ctl is :=
  ⟨by decide, h1, h2, fun _ _ s _ => ⟨s, rfl, rfl⟩⟩

theorem sane1 : Sane flat ctl ([] ++ [plain]) := sane_of (by simp [worth, plain]; norm_num) (by decide)
theorem sane2 : Sane flat ctl ([plain] ++ [guess]) := sane_of (by simp [worth, plain, guess]; norm_num) (by decide)
theorem sane3 : Sane flat ctl ([play] ++ [plain]) := sane_of (by simp [worth, plain, play]; norm_num) (by decide)
theorem sane4 : Sane flat ctl ([guess] ++ [play]) := sane_of (by simp [worth, guess, play]; norm_num) (by decide)

/-- What is made of them. -/
def made1 : Made := ⟨.actual, 1, [plain], [], [], [], [⟨1, 1, 10⟩, ⟨3, 1, 1⟩, ⟨2, 1, 10⟩]⟩
def made2 : Made := ⟨.predicted, 1, [plain, guess], [], [11], [], [⟨1, 3/4, 1000000⟩]⟩
def made3 : Made := ⟨.simulated, 1, [play, plain], [5], [], [], [⟨1, 3/4, 1⟩]⟩
def made4 : Made := ⟨.simulated, 1, [guess, play], [5], [], [7, 8], [⟨1, 4/5, 1⟩]⟩

theorem run1 : complete flat ctl 0 1000000 [] plain = some made1 := by decide +kernel
theorem run2 : complete flat ctl 0 1000000 [plain] guess = some made2 := by decide +kernel
theorem run3 : complete flat ctl 0 1000000 [play] plain = some made3 := by decide +kernel
theorem run4 : complete flat ctl 0 1000000 [guess] play = some made4 := by decide +kernel

/-- Where the full property fails: the instance is of confidence 1, whatever its members; a prediction lives
100000 times too long; a prediction does not have the validities of the predictions it was made from, nor has one
in a simulation if the last input is a fact; and one in a simulation does not have the grounds. -/
theorem C156_instance_violated : ¬ C156_full ∧
    (¬ Least ([] ++ [plain]) made1.cfd) ∧
    (∃ v ∈ made2.shown, v.grp = ctl.primary.id ∧ v.res = 100000 * Lifetime.viewRes ctl.ref ctl.base ctl.primary.upr 0 (ttl 0 1000000)) ∧
    (7 ∉ made2.vals) ∧ (8 ∉ made3.vals) ∧ 11 ∉ made4.grounds := by
  have hl : ¬ Least ([] ++ [plain]) made1.cfd := by
    rintro ⟨⟨i, h, e⟩, -⟩
    have : i = plain := by simpa using h
    subst this
    revert e; simp [worth, plain, made1]
    norm_num
  refine ⟨fun h => ?_, hl, ⟨⟨1, 3/4, 1000000⟩, by simp [made2], rfl, by decide +kernel⟩, by decide, by decide, by decide⟩
  obtain ⟨m, h1, h2⟩ := h flat ctl 0 1000000 [] plain sane1
  rw [run1] at h1; cases h1
  exact hl h2.cfd

/-- The core applies to all four. -/
theorem C156_nonvacuous : C156Core flat ctl [plain] made1 ∧ C156Core flat ctl [plain, guess] made2 ∧ C156Core flat ctl [play, plain] made3 ∧
    C156Core flat ctl [guess, play] made4 := by
  refine ⟨?_, ?_, ?_, ?_⟩
  · obtain ⟨m, h1, h2⟩ := C156_core_partial 0 1000000 sane1
    rw [run1] at h1; cases h1; exact h2
  · obtain ⟨m, h1, h2⟩ := C156_core_partial 0 1000000 sane2
    rw [run2] at h1; cases h1; exact h2
  · obtain ⟨m, h1, h2⟩ := C156_core_partial 0 1000000 sane3
    rw [run3] at h1; cases h1; exact h2
  · obtain ⟨m, h1, h2⟩ := C156_core_partial 0 1000000 sane4
    rw [run4] at h1; cases h1; exact h2

end Verif.Icst
