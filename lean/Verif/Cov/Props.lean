import Verif.Cov.Spec
/-!
# Content visibility (C170, C171)
-/
namespace Verif.Cov
open Verif.F32 Verif.ViewCtl

/-- What copying from `g` (where the saliency is `s`) to the groups `l` does to an object: new views and new requests. -/
structure Post (N : Net) (g : Nat) (s : Rat) (l : List Nat) (st st' : St) (nv ns : List (Nat × Rat)) : Prop where
  views : st'.views = st.views ++ nv
  sets : st'.sets = st.sets ++ ns
  count : ∀ h, (nv ++ ns).countP (fun e => e.1 = h) = l.count h + ((nv.map Prod.fst).map fun p => (N.sees p).count h).sum
  nodup : st.groups.Nodup → st'.groups.Nodup
  has : ∀ e ∈ ns, e.1 ∈ st'.groups
  origin : ∀ e ∈ nv ++ ns, ∃ p u, ((p = g ∧ u = s ∧ e.1 ∈ l) ∨ ((p, u) ∈ nv ∧ e.1 ∈ N.sees p)) ∧ e.2 = N.morph p e.1 u
  reach : ∀ e ∈ nv, ∃ x ∈ l, Reach N x e.1

theorem Post.refl {N : Net} {g : Nat} {s : Rat} {st : St} : Post N g s [] st st [] [] :=
  ⟨by simp, by simp, by simp, fun h => h, by simp, by simp, by simp⟩

theorem Reach.trans {N : Net} {a b c : Nat} (h1 : Reach N a b) (h2 : Reach N b c) : Reach N a c := by
  induction h2 with
  | refl => exact h1
  | step _ h ih => exact .step ih h

theorem Reach.head {N : Net} {a b c : Nat} (h1 : b ∈ N.sees a) (h2 : Reach N b c) : Reach N a c := (Reach.step .refl h1).trans h2

/-- The groups of a universe without a view of the object. -/
def left (U : List Nat) (st : St) : Nat := (U.filter fun x => x ∉ st.groups).length

theorem left_mono {U : List Nat} {st st' : St} (h : ∀ x ∈ st.groups, x ∈ st'.groups) : left U st' ≤ left U st := by
  unfold left
  induction U with
  | nil => simp
  | cons x U ih =>
    simp only [List.filter_cons]
    by_cases h1 : x ∈ st.groups
    · have h2 := h x h1
      simp only [h1, h2, not_true, decide_false, Bool.false_eq_true, if_false]; exact ih
    · by_cases h2 : x ∈ st'.groups
      · simp only [h1, h2, not_true, not_false_eq_true, decide_false, decide_true, Bool.false_eq_true, if_false, if_true, List.length_cons]; omega
      · simp only [h1, h2, not_false_eq_true, decide_true, if_true, List.length_cons]; omega

theorem left_add {U : List Nat} {st : St} {h : Nat} {v : Rat} (hU : h ∈ U) (hn : h ∉ st.groups) : left U ⟨st.views ++ [(h, v)], st.sets⟩ < left U st := by
  have hg : ∀ x, x ∈ (⟨st.views ++ [(h, v)], st.sets⟩ : St).groups ↔ x ∈ st.groups ∨ x = h := by
    intro x; simp [St.groups]
  have hm : ∀ V : List Nat, (V.filter fun x => x ∉ (⟨st.views ++ [(h, v)], st.sets⟩ : St).groups).length ≤ (V.filter fun x => x ∉ st.groups).length :=
    fun V => left_mono (U := V) fun x hx => (hg x).mpr (Or.inl hx)
  unfold left
  induction U with
  | nil => cases hU
  | cons x U ih =>
    simp only [List.filter_cons]
    by_cases hx : x = h
    · subst hx
      have h2 := (hg x).mpr (Or.inr rfl)
      simp only [hn, h2, not_true, not_false_eq_true, decide_false, decide_true, Bool.false_eq_true, if_false, if_true, List.length_cons]
      exact Nat.lt_succ_of_le (hm U)
    · have hU' : h ∈ U := by
        rcases List.mem_cons.mp hU with h' | h'
        · exact absurd h'.symm hx
        · exact h'
      have := ih hU'
      by_cases h1 : x ∈ st.groups
      · have h2 := (hg x).mpr (Or.inl h1)
        simp only [h1, h2, not_true, decide_false, Bool.false_eq_true, if_false]; exact this
      · have h2 : x ∉ (⟨st.views ++ [(h, v)], st.sets⟩ : St).groups := fun h' => by
          rcases (hg x).mp h' with h' | h'
          · exact h1 h'
          · exact hx h'
        simp only [h1, h2, not_false_eq_true, decide_true, if_true, List.length_cons]; omega

theorem Post.grows {N : Net} {g : Nat} {s : Rat} {l : List Nat} {st st' : St} {nv ns} (h : Post N g s l st st' nv ns) : ∀ x ∈ st.groups, x ∈ st'.groups := by
  intro x hx
  simp only [St.groups, h.views, List.map_append, List.mem_append]
  exact Or.inl hx

section
variable {N : Net} {U : List Nat} (hU : ∀ x ∈ U, ∀ y ∈ N.sees x, y ∈ U)
include hU

/-- Copying to one group, when injecting does what it should. -/
theorem copy_post {n : Nat}
    (hi : ∀ g ∈ U, ∀ s st, left U st < n → ∃ st' nv ns, inject N n g s st = some st' ∧ Post N g s (N.sees g) st st' nv ns)
    {g h : Nat} {s : Rat} {st : St} (hh : h ∈ U) (hl : left U st ≤ n) :
    ∃ st' nv ns, copy N (inject N n) g s st h = some st' ∧ Post N g s [h] st st' nv ns ∧ h ∈ st'.groups := by
  unfold copy
  by_cases hm : h ∈ st.groups
  · rw [if_pos hm]
    refine ⟨_, [], [(h, N.morph g h s)], rfl, ⟨by simp, rfl, ?_, fun h => h, ?_, ?_, by simp⟩, hm⟩
    · intro x; by_cases e : h = x <;> simp [e]
    · intro e he; simp only [List.mem_singleton] at he; subst he; exact hm
    · intro e he; simp only [List.nil_append, List.mem_singleton] at he; subst he
      exact ⟨g, s, Or.inl ⟨rfl, rfl, by simp⟩, rfl⟩
  · rw [if_neg hm]
    obtain ⟨st', nv, ns, h1, P⟩ := hi h hh (N.morph g h s) ⟨st.views ++ [(h, N.morph g h s)], st.sets⟩ (by
      have := left_add (v := N.morph g h s) hh hm; omega)
    refine ⟨st', (h, N.morph g h s) :: nv, ns, h1, ⟨by rw [P.views]; simp, P.sets, ?_, ?_, P.has, ?_, ?_⟩, ?_⟩
    · intro x
      have := P.count x
      simp only [List.cons_append, List.countP_cons, List.map_cons, List.sum_cons, List.count_cons, List.count_nil, this]
      by_cases e : h = x <;> simp [e] <;> omega
    · intro hn
      refine P.nodup ?_
      simp only [St.groups, List.map_append, List.map_cons, List.map_nil]
      exact List.nodup_append.mpr ⟨hn, by simp, fun a ha b hb => by
        simp only [List.mem_singleton] at hb; subst hb; rintro rfl; exact hm ha⟩
    · intro e he
      rcases List.mem_cons.mp he with rfl | he
      · exact ⟨g, s, Or.inl ⟨rfl, rfl, by simp⟩, rfl⟩
      · obtain ⟨p, u, h2, h3⟩ := P.origin e he
        refine ⟨p, u, Or.inr ?_, h3⟩
        rcases h2 with ⟨rfl, rfl, h2⟩ | ⟨h2, h4⟩
        · exact ⟨List.mem_cons_self, h2⟩
        · exact ⟨List.mem_cons_of_mem _ h2, h4⟩
    · intro e he
      refine ⟨h, by simp, ?_⟩
      rcases List.mem_cons.mp he with rfl | he
      · exact .refl
      · obtain ⟨x, hx, hr⟩ := P.reach e he
        exact .head hx hr
    · refine P.grows h ?_
      simp [St.groups]

theorem Post.trans {g : Nat} {s : Rat} {h : Nat} {hs : List Nat} {st st1 st2 : St} {nv1 ns1 nv2 ns2} (P : Post N g s [h] st st1 nv1 ns1)
    (Q : Post N g s hs st1 st2 nv2 ns2) : Post N g s (h :: hs) st st2 (nv1 ++ nv2) (ns1 ++ ns2) := by
  refine ⟨by rw [Q.views, P.views, List.append_assoc], by rw [Q.sets, P.sets, List.append_assoc], ?_, fun h => Q.nodup (P.nodup h), ?_, ?_, ?_⟩
  · intro x
    have h1 := P.count x
    have h2 := Q.count x
    simp only [List.countP_append, List.map_append, List.sum_append, List.count_cons, List.count_nil] at h1 h2 ⊢
    omega
  · intro e he
    rcases List.mem_append.mp he with he | he
    · exact Q.grows _ (P.has e he)
    · exact Q.has e he
  · intro e he
    have he' : e ∈ nv1 ++ ns1 ∨ e ∈ nv2 ++ ns2 := by
      simp only [List.mem_append] at he ⊢; tauto
    rcases he' with he | he
    · obtain ⟨p, u, h1, h2⟩ := P.origin e he
      refine ⟨p, u, ?_, h2⟩
      rcases h1 with ⟨a, b, c⟩ | ⟨a, b⟩
      · simp only [List.mem_singleton] at c
        exact Or.inl ⟨a, b, by simp [c]⟩
      · exact Or.inr ⟨List.mem_append_left _ a, b⟩
    · obtain ⟨p, u, h1, h2⟩ := Q.origin e he
      refine ⟨p, u, ?_, h2⟩
      rcases h1 with ⟨a, b, c⟩ | ⟨a, b⟩
      · exact Or.inl ⟨a, b, List.mem_cons_of_mem _ c⟩
      · exact Or.inr ⟨List.mem_append_right _ a, b⟩
  · intro e he
    rcases List.mem_append.mp he with he | he
    · obtain ⟨x, hx, hr⟩ := P.reach e he
      simp only [List.mem_singleton] at hx
      exact ⟨x, by simp [hx], hr⟩
    · obtain ⟨x, hx, hr⟩ := Q.reach e he
      exact ⟨x, List.mem_cons_of_mem _ hx, hr⟩

theorem spread_post {n : Nat}
    (hi : ∀ g ∈ U, ∀ s st, left U st < n → ∃ st' nv ns, inject N n g s st = some st' ∧ Post N g s (N.sees g) st st' nv ns)
    {g : Nat} {s : Rat} (l : List Nat) : ∀ st, (∀ h ∈ l, h ∈ U) → left U st ≤ n →
    ∃ st' nv ns, spread N (inject N n) g s l st = some st' ∧ Post N g s l st st' nv ns := by
  induction l with
  | nil => exact fun st _ _ => ⟨st, [], [], rfl, .refl⟩
  | cons h hs ih =>
    intro st hl hn
    obtain ⟨st1, nv1, ns1, h1, P, _⟩ := copy_post hU hi (g := g) (s := s) (hl h List.mem_cons_self) hn
    obtain ⟨st2, nv2, ns2, h2, Q⟩ := ih st1 (fun x hx => hl x (List.mem_cons_of_mem _ hx)) (Nat.le_trans (left_mono P.grows) hn)
    exact ⟨st2, _, _, by simp only [spread, h1, Option.bind_some, h2], P.trans hU Q⟩

theorem inject_post (n : Nat) : ∀ g ∈ U, ∀ s st, left U st < n →
    ∃ st' nv ns, inject N n g s st = some st' ∧ Post N g s (N.sees g) st st' nv ns := by
  induction n with
  | zero => intro g _ s st h; omega
  | succ n ih =>
    intro g hg s st h
    exact spread_post hU ih (N.sees g) st (hU g hg) (by omega)
end

theorem le_sum_of_mem {l : List Nat} {x : Nat} (h : x ∈ l) : x ≤ l.sum := by
  induction l with
  | nil => cases h
  | cons y l ih =>
    simp only [List.sum_cons]
    rcases List.mem_cons.mp h with rfl | h
    · omega
    · have := ih h; omega

/-- More steps do not change the outcome. -/
theorem inject_more {N : Net} (n : Nat) : ∀ g s st st', inject N n g s st = some st' → inject N (n + 1) g s st = some st' := by
  induction n with
  | zero => intro g s st st' h; cases h
  | succ n ih =>
    intro g s st st' h
    have hs : ∀ l st st', spread N (inject N n) g s l st = some st' → spread N (inject N (n + 1)) g s l st = some st' := by
      intro l
      induction l with
      | nil => exact fun st st' h => h
      | cons x l ihl =>
        intro st st' h
        simp only [spread] at h ⊢
        obtain ⟨st1, h1, h2⟩ := Option.bind_eq_some_iff.mp h
        have : copy N (inject N (n + 1)) g s st x = some st1 := by
          unfold copy at h1 ⊢
          split
          · rename_i hx; rw [if_pos hx] at h1; exact h1
          · rename_i hx; rw [if_neg hx] at h1; exact ih _ _ _ _ h1
        rw [this, Option.bind_some]
        exact ihl _ _ h2
    exact hs _ _ _ h

theorem inject_ge {N : Net} {n m : Nat} (hm : n ≤ m) {g s st st'} (h : inject N n g s st = some st') : inject N m g s st = some st' := by
  obtain ⟨k, rfl⟩ := Nat.exists_eq_add_of_le hm
  induction k with
  | zero => exact h
  | succ k ih => exact inject_more _ _ _ _ _ (ih (by omega))

/-- C170. -/
theorem C170_injection : C170_full := by
  intro N U hU g hg s
  obtain ⟨st, nv, ns, h1, P⟩ := inject_post hU (left U ⟨[(g, s)], []⟩ + 1) g hg s ⟨[(g, s)], []⟩ (by omega)
  have hv : st.views = (g, s) :: nv := P.views
  have hs : st.sets = ns := by rw [P.sets]; rfl
  have hg' : ∀ x, x ∈ st.groups ↔ x = g ∨ x ∈ nv.map Prod.fst := by
    intro x; simp only [St.groups, hv, List.map_cons, List.mem_cons]
  refine ⟨st, ⟨_, fun m hm => inject_ge hm h1⟩, P.nodup (by simp [St.groups]), fun h => ⟨fun hh => ?_, fun hr => ?_⟩, by rw [hv]; rfl, ?_, ?_⟩
  · rcases (hg' h).mp hh with rfl | hh
    · exact .refl
    · obtain ⟨e, he, rfl⟩ := List.mem_map.mp hh
      obtain ⟨x, hx, hr⟩ := P.reach e he
      exact .head hx hr
  · induction hr with
    | refl => exact (hg' g).mpr (Or.inl rfl)
    | @step x y _ hy ih =>
      have hc := P.count y
      have hpos : 0 < (nv ++ ns).countP (fun e => e.1 = y) := by
        rw [hc]
        rcases (hg' x).mp ih with rfl | hx
        · have := List.count_pos_iff.mpr hy; omega
        · have h1 := List.count_pos_iff.mpr hy
          have h2 : (N.sees x).count y ∈ (nv.map Prod.fst).map fun p => (N.sees p).count y := List.mem_map.mpr ⟨x, hx, rfl⟩
          have h3 : (N.sees x).count y ≤ ((nv.map Prod.fst).map fun p => (N.sees p).count y).sum := le_sum_of_mem h2
          omega
      obtain ⟨e, he, hey⟩ := List.countP_pos_iff.mp hpos
      simp only [decide_eq_true_eq] at hey
      subst hey
      rcases List.mem_append.mp he with he | he
      · exact (hg' _).mpr (Or.inr (List.mem_map.mpr ⟨e, he, rfl⟩))
      · exact P.has e he
  · intro h v hm
    rw [hv, hs, List.tail_cons] at hm
    obtain ⟨p, u, h2, h3⟩ := P.origin (h, v) hm
    refine ⟨p, u, ?_⟩
    rcases h2 with ⟨rfl, rfl, h2⟩ | ⟨h2, h4⟩
    · exact ⟨by rw [hv]; exact List.mem_cons_self, h2, h3⟩
    · exact ⟨by rw [hv]; exact List.mem_cons_of_mem _ h2, h4, h3⟩
  · intro h
    rw [hv, hs, List.tail_cons, P.count h]
    simp only [St.groups, hv, List.map_cons, List.sum_cons]

/-! ## At an update -/

/-- What `cov()` for the views `vs` of a group does to an object. -/
structure Grow (N : Net) (g : Nat) (vs : List Nsv) (o : Nat) (st st' : St) : Prop where
  nodup : st.groups.Nodup → st'.groups.Nodup
  same : (∀ v ∈ vs, v.obj = o → v.copied = false) → st' = st
  views : ∃ nv, st'.views = st.views ++ nv ∧ ∀ e ∈ nv, Reach N g e.1 ∧
    ∃ p u, e.1 ∈ N.sees p ∧ e.2 = N.morph p e.1 u ∧ ((p, u) ∈ st'.views ∨ p = g ∧ ∃ v ∈ vs, v.obj = o ∧ u = v.sln)

theorem Grow.refl {N : Net} {g : Nat} {vs : List Nsv} {o : Nat} {st : St} : Grow N g vs o st st :=
  ⟨fun h => h, fun _ => rfl, [], by simp, by simp⟩

theorem Grow.grows {N : Net} {g : Nat} {vs : List Nsv} {o : Nat} {st st' : St} (h : Grow N g vs o st st') : ∀ x ∈ st.groups, x ∈ st'.groups := by
  obtain ⟨nv, h1, _⟩ := h.views
  intro x hx
  simp only [St.groups, h1, List.map_append, List.mem_append]
  exact Or.inl hx

theorem Grow.trans {N : Net} {g : Nat} {vs : List Nsv} {o : Nat} {st st1 st2 : St} (P : Grow N g vs o st st1) (Q : Grow N g vs o st1 st2) :
    Grow N g vs o st st2 := by
  refine ⟨fun h => Q.nodup (P.nodup h), fun h => (Q.same h).trans (P.same h), ?_⟩
  obtain ⟨nv, h1, h2⟩ := P.views
  obtain ⟨mv, h3, h4⟩ := Q.views
  refine ⟨nv ++ mv, by rw [h3, h1, List.append_assoc], fun e he => ?_⟩
  rcases List.mem_append.mp he with he | he
  · obtain ⟨hr, p, u, q1, q2, q3⟩ := h2 e he
    refine ⟨hr, p, u, q1, q2, ?_⟩
    rcases q3 with q3 | q3
    · left; rw [h3]; exact List.mem_append_left _ q3
    · exact Or.inr q3
  · exact h4 e he

section
variable {N : Net} {U : List Nat} (hU : ∀ x ∈ U, ∀ y ∈ N.sees x, y ∈ U)
include hU

theorem copy_grow {g h : Nat} (hg : h ∈ N.sees g) (hh : h ∈ U) {vs : List Nsv} {v : Nsv} (hv : v ∈ vs) (hc : v.copied = true) (st : St) :
    ∃ st', copy N (inject N U.length) g v.sln st h = some st' ∧ Grow N g vs v.obj st st' ∧ h ∈ st'.groups := by
  obtain ⟨st', nv, ns, h1, P, h2⟩ := copy_post hU (inject_post hU U.length) (g := g) (s := v.sln) (st := st) hh (List.length_filter_le _ _)
  refine ⟨st', h1, ⟨P.nodup, fun h => ?_, nv, P.views, fun e he => ⟨?_, ?_⟩⟩, h2⟩
  · rw [h v hv rfl] at hc; cases hc
  · obtain ⟨x, hx, hr⟩ := P.reach e he
    simp only [List.mem_singleton] at hx
    subst hx
    exact .head hg hr
  · obtain ⟨p, u, q1, q2⟩ := P.origin e (List.mem_append_left _ he)
    rcases q1 with ⟨rfl, rfl, q1⟩ | ⟨q1, q3⟩
    · simp only [List.mem_singleton] at q1
      exact ⟨p, _, by rw [q1]; exact hg, q2, Or.inr ⟨rfl, v, hv, rfl, rfl⟩⟩
    · exact ⟨p, u, q3, q2, Or.inl (by rw [P.views]; exact List.mem_append_right _ q1)⟩

theorem covGroup_grow {g h : Nat} (hg : h ∈ N.sees g) (hh : h ∈ U) (vs : List Nsv) (ws : List Nsv) : ∀ (σ : Nat → St), (∀ v ∈ ws, v ∈ vs) →
    ∃ σ', covGroup N U.length g h ws σ = some σ' ∧ (∀ o, Grow N g vs o (σ o) (σ' o)) ∧ ∀ v ∈ ws, v.copied = true → h ∈ (σ' v.obj).groups := by
  induction ws with
  | nil => exact fun σ _ => ⟨σ, rfl, fun _ => .refl, fun _ h => by cases h⟩
  | cons v ws ih =>
    intro σ hw
    by_cases hc : v.copied = true
    · obtain ⟨st', h1, G, h2⟩ := copy_grow hU hg hh (hw v List.mem_cons_self) hc (σ v.obj)
      obtain ⟨σ', h3, G', h4⟩ := ih (fun o => if o = v.obj then st' else σ o) fun x hx => hw x (List.mem_cons_of_mem _ hx)
      refine ⟨σ', by simp only [covGroup, if_pos hc, h1, Option.bind_some, h3], fun o => ?_, fun x hx hxc => ?_⟩
      · have := G' o
        by_cases ho : o = v.obj
        · subst ho
          simp only [if_true] at this
          exact G.trans this
        · simp only [if_neg ho] at this
          exact this
      · rcases List.mem_cons.mp hx with rfl | hx
        · have := (G' x.obj).grows h
          simp only [if_true] at this
          exact this h2
        · exact h4 x hx hxc
    · obtain ⟨σ', h3, G', h4⟩ := ih σ fun x hx => hw x (List.mem_cons_of_mem _ hx)
      refine ⟨σ', by simp only [covGroup, if_neg hc, h3], G', fun x hx hxc => ?_⟩
      rcases List.mem_cons.mp hx with rfl | hx
      · exact absurd hxc hc
      · exact h4 x hx hxc

theorem cov_grow {g : Nat} (vs : List Nsv) (hs : List Nat) : ∀ (σ : Nat → St), (∀ h ∈ hs, h ∈ N.sees g ∧ h ∈ U) →
    ∃ σ', cov N U.length g vs hs σ = some σ' ∧ (∀ o, Grow N g vs o (σ o) (σ' o)) ∧ ∀ v ∈ vs, v.copied = true → ∀ h ∈ hs, h ∈ (σ' v.obj).groups := by
  induction hs with
  | nil => exact fun σ _ => ⟨σ, rfl, fun _ => .refl, fun _ _ _ _ h => by cases h⟩
  | cons h hs ih =>
    intro σ hh
    obtain ⟨h1, h2⟩ := hh h List.mem_cons_self
    obtain ⟨σ1, q1, G1, q2⟩ := covGroup_grow hU h1 h2 vs vs σ fun _ h => h
    obtain ⟨σ2, q3, G2, q4⟩ := ih σ1 fun x hx => hh x (List.mem_cons_of_mem _ hx)
    refine ⟨σ2, by simp only [cov, q1, Option.bind_some, q3], fun o => (G1 o).trans (G2 o), fun v hv hc x hx => ?_⟩
    rcases List.mem_cons.mp hx with rfl | hx
    · exact (G2 v.obj).grows x (q2 v hv hc)
    · exact q4 v hv hc x hx
end

theorem copy_ge {N : Net} {n m : Nat} (hm : n ≤ m) {g h s st st'} (hc : copy N (inject N n) g s st h = some st') :
    copy N (inject N m) g s st h = some st' := by
  unfold copy at hc ⊢
  split
  · rename_i hx; rw [if_pos hx] at hc; exact hc
  · rename_i hx; rw [if_neg hx] at hc; exact inject_ge hm hc

theorem covGroup_ge {N : Net} {n m : Nat} (hm : n ≤ m) {g h : Nat} (vs : List Nsv) : ∀ {σ σ'}, covGroup N n g h vs σ = some σ' →
    covGroup N m g h vs σ = some σ' := by
  induction vs with
  | nil => exact fun h => h
  | cons v vs ih =>
    intro σ σ' hc
    simp only [covGroup] at hc ⊢
    split
    · rename_i hv
      rw [if_pos hv] at hc
      obtain ⟨st, h1, h2⟩ := Option.bind_eq_some_iff.mp hc
      rw [copy_ge hm h1, Option.bind_some]
      exact ih h2
    · rename_i hv
      rw [if_neg hv] at hc
      exact ih hc

theorem cov_ge {N : Net} {n m : Nat} (hm : n ≤ m) {g : Nat} {vs : List Nsv} (hs : List Nat) : ∀ {σ σ'}, cov N n g vs hs σ = some σ' →
    cov N m g vs hs σ = some σ' := by
  induction hs with
  | nil => exact fun h => h
  | cons x hs ih =>
    intro σ σ' hc
    simp only [cov] at hc ⊢
    obtain ⟨σ1, h1, h2⟩ := Option.bind_eq_some_iff.mp hc
    rw [covGroup_ge hm vs h1, Option.bind_some]
    exact ih h2

theorem copied_iff (v : Nsv) : v.copied = true ↔ v.notification = false ∧ (v.sort = .object ∨ v.sort = .marker) := by
  unfold Nsv.copied
  cases v.notification <;> cases v.sort <;> simp

/-- C171. -/
theorem C171_update : C171_full := by
  intro N U hU g hg vs σ hn
  obtain ⟨σ', h1, G, h2⟩ := cov_grow hU (g := g) vs (N.sees g) σ fun h hh => ⟨hh, hU g hg h hh⟩
  refine ⟨σ', ⟨U.length, fun m hm => cov_ge hm _ h1⟩, fun o => (G o).nodup (hn o), fun o => ?_, fun v hv ha hb => ?_, fun o ho => ?_, fun o h hh hnh => ?_, fun o h x hx hnh => ?_⟩
  · obtain ⟨nv, h, _⟩ := (G o).views
    exact ⟨nv, h⟩
  · exact h2 v hv ((copied_iff v).mpr ⟨ha, hb⟩)
  · refine (G o).same fun v hv hvo => ?_
    rcases hc : v.copied with _ | _
    · rfl
    · obtain ⟨a, b⟩ := (copied_iff v).mp hc
      rcases ho v hv hvo with q | ⟨q1, q2⟩
      · rw [a] at q; cases q
      · rcases b with b | b
        · exact absurd b q1
        · exact absurd b q2
  · obtain ⟨nv, h3, h4⟩ := (G o).views
    simp only [St.groups, h3, List.map_append, List.mem_append] at hh
    rcases hh with hh | hh
    · exact absurd hh hnh
    · obtain ⟨e, he, rfl⟩ := List.mem_map.mp hh
      exact (h4 e he).1
  · obtain ⟨nv, h3, h4⟩ := (G o).views
    rw [h3] at hx
    rcases List.mem_append.mp hx with hx | hx
    · exact absurd (List.mem_map.mpr ⟨(h, x), hx, rfl⟩) hnh
    · exact (h4 (h, x) hx).2

/-! ## Examples -/

/-- Groups 0 and 1 see each other; 2 sees both. Thresholds 1/2, 1/4, 1/2. -/
def exNet : Net :=
  ⟨exact, fun g => if g = 0 then [1, 2] else if g = 1 then [2, 0] else [], fun g => if g = 1 then 1/4 else 1/2⟩

theorem exNet_closed : ∀ x ∈ [0, 1, 2], ∀ y ∈ exNet.sees x, y ∈ [0, 1, 2] := by
  intro x hx
  simp only [List.mem_cons, List.not_mem_nil, or_false] at hx
  rcases hx with rfl | rfl | rfl <;> simp [exNet]

/-- An object injected into group 0: its copies, and the requests, of which one is on the view it was injected with. -/
theorem C170_nonvacuous :
    (∀ x ∈ [0, 1, 2], ∀ y ∈ exNet.sees x, y ∈ [0, 1, 2]) ∧
    inject exNet 4 0 1 ⟨[(0, 1)], []⟩ = some ⟨[(0, 1), (1, 1/2), (2, 1)], [(0, 1), (2, 1)]⟩ :=
  ⟨exNet_closed, by decide +kernel⟩

/-- A marker has become salient in group 0, and so has a program: group 1 gets a copy of the marker, group 2 had one. -/
theorem C171_nonvacuous :
    (∀ x ∈ [0, 1, 2], ∀ y ∈ exNet.sees x, y ∈ [0, 1, 2]) ∧
    ((cov exNet 3 0 [⟨7, .marker, false, 3/4⟩, ⟨8, .program, false, 1⟩] [1, 2] (fun o => if o = 7 then ⟨[(0, 3/4), (2, 0)], []⟩ else ⟨[(0, 1)], []⟩)).map fun σ => (σ 7, σ 8)) =
      some (⟨[(0, 3/4), (2, 0), (1, 3/8)], [(2, 3/4), (0, 3/4), (2, 3/4)]⟩, ⟨[(0, 1)], []⟩) :=
  ⟨exNet_closed, by decide +kernel⟩

end Verif.Cov
