import Verif.Mix.Spec
/-!
# C175
-/
namespace Verif.Mix

/-- What holds of overlays when predictions are in one simulation at most. -/
def Inv {B : Type} (o : Overlay B) : Prop :=
  (o.sims = [] ∧ ∀ i ∈ o.ins, i.sims = []) ∨
  ∃ s, o.sims = [s] ∧ (∀ i ∈ o.ins, i.sims = [] ∨ i.sims = [s]) ∧ ∃ i ∈ o.ins, i.sims = [s]

theorem Single.cases {i : Input} (h : Single i) : i.sims = [] ∨ ∃ s, i.sims = [s] := by
  unfold Single at h
  cases hs : i.sims with
  | nil => exact .inl rfl
  | cons a l =>
    cases l with
    | nil => exact .inr ⟨a, rfl⟩
    | cons b l => rw [hs] at h; simp at h

theorem ins_nil {B : Type} (o : Overlay B) : (o.axIns.length + o.nonIns.length == 0) = true ↔ o.ins = [] := by
  simp [Overlay.ins, List.length_eq_zero_iff]

theorem mem_update {B : Type} {l : Lang B} {o : Overlay B} {b : B} {i j : Input} {ax : Bool} : j ∈ (update l o b i ax).ins ↔ j = i ∨ j ∈ o.ins := by
  cases ax <;> simp [update, Overlay.ins, or_comm, or_assoc, or_left_comm]

theorem admit_none {B : Type} {l : Lang B} {o : Overlay B} {i : Input} (hi : Inv o) (hs : Single i) (h : admit l o i = none) :
    ¬ Together (i :: o.ins) ∨ Early l o i := by
  rcases hs.cases with e | ⟨s, e⟩
  · simp [admit, simOf, e] at h
  · rcases hi with ⟨h0, _⟩ | ⟨t, h0, h1, j, hj, ej⟩
    · right
      by_cases c : o.axIns.length > 0 ∧ o.nonIns.length = 0
      · by_cases c1 : i.after < l.fwdBefore o.binds ∧ i.before > l.fwdAfter o.binds
        · simp [admit, simOf, e, h0, c, c1] at h
        · by_cases c2 : i.before ≤ l.fwdAfter o.binds
          · exact ⟨by simp [e], List.length_pos_iff.1 c.1, List.length_eq_zero_iff.1 c.2, c2⟩
          · simp only [admit, simOf, e, h0, if_pos c, if_neg c1, if_neg c2] at h
            simp at h
      · simp only [admit, simOf, e, h0, if_neg c] at h
        simp at h
    · by_cases hst : t = s
      · subst hst
        right
        by_cases c : o.axIns.length > 0 ∧ o.nonIns.length = 0
        · by_cases c1 : i.after < l.fwdBefore o.binds ∧ i.before > l.fwdAfter o.binds
          · simp [admit, simOf, e, h0, c, c1] at h
          · by_cases c2 : i.before ≤ l.fwdAfter o.binds
            · exact ⟨by simp [e], List.length_pos_iff.1 c.1, List.length_eq_zero_iff.1 c.2, c2⟩
            · simp only [admit, simOf, e, h0, if_pos c, if_neg c1, if_neg c2] at h
              simp at h
        · simp only [admit, simOf, e, h0, if_neg c] at h
          simp at h
      · left
        rintro ⟨u, hu⟩
        have a1 := hu i List.mem_cons_self
        have a2 := hu j (List.mem_cons_of_mem _ hj)
        rw [e] at a1
        rw [ej] at a2
        simp at a1 a2
        exact hst (a2.symm.trans a1)

theorem admit_some {B : Type} {l : Lang B} {o : Overlay B} {i : Input} {r : Bool} (hi : Inv o) (hs : Single i) (h : admit l o i = some r) :
    (i.sims = [] ∨ o.sims = [] ∨ o.sims = i.sims) ∧ ¬ Early l o i ∧ (r = true ↔ o.ins = [] ∨ Late l o i) := by
  rcases hs.cases with e | ⟨s, e⟩
  · simp only [admit, simOf, e, Option.some.injEq] at h
    refine ⟨.inl e, fun k => k.1 e, ?_⟩
    rw [← h, ins_nil]
    exact ⟨.inl, fun k => k.elim id fun k => absurd e k.1⟩
  · have hsim : o.sims = [] ∨ o.sims = i.sims := by
      rcases hi with ⟨h0, _⟩ | ⟨t, h0, _⟩
      · exact .inl h0
      · by_cases hst : t = s
        · exact .inr (by rw [h0, e, hst])
        · simp [admit, simOf, e, h0, hst] at h
    have hn1 : ¬ o.sims.length > 1 := by rcases hsim with k | k <;> simp [k, e]
    have hn2 : ¬ (o.sims.length = 1 ∧ o.sims.head? ≠ some s) := by rcases hsim with k | k <;> simp [k, e]
    refine ⟨.inr hsim, ?_⟩
    simp only [admit, simOf, e, if_neg hn1, if_neg hn2] at h
    by_cases c : o.axIns.length > 0 ∧ o.nonIns.length = 0
    · have hne : o.ins ≠ [] := by
        intro k
        simp [Overlay.ins] at k
        simp [k.1] at c
      have hf : (o.axIns.length + o.nonIns.length == 0) = false := by
        rw [Bool.eq_false_iff]; exact fun k => hne ((ins_nil o).1 k)
      rw [if_pos c] at h
      by_cases c1 : i.after < l.fwdBefore o.binds ∧ i.before > l.fwdAfter o.binds
      · rw [if_pos c1] at h
        cases h
        refine ⟨(fun k => by have := k.2.2.2; omega), ?_⟩
        rw [hf]
        exact ⟨(fun k => by cases k), fun k => k.elim (fun k => absurd k hne) (fun k => by have := k.2.2.2; omega)⟩
      · rw [if_neg c1] at h
        by_cases c2 : i.before ≤ l.fwdAfter o.binds
        · rw [if_pos c2] at h; cases h
        · rw [if_neg c2] at h
          cases h
          exact ⟨fun k => c2 k.2.2.2, fun _ => .inr ⟨by simp [e], List.length_pos_iff.1 c.1, List.length_eq_zero_iff.1 c.2, by omega, by omega⟩, fun _ => rfl⟩
    · rw [if_neg c] at h
      simp only [Option.some.injEq] at h
      have hc : ¬ (o.axIns ≠ [] ∧ o.nonIns = []) := fun k => c ⟨List.length_pos_iff.2 k.1, by simp [k.2]⟩
      refine ⟨fun k => hc ⟨k.2.1, k.2.2.1⟩, ?_⟩
      rw [← h, ins_nil]
      exact ⟨.inl, fun k => k.elim id fun k => absurd ⟨k.2.1, k.2.2.1⟩ hc⟩

theorem find_isSome {α β : Type} {f : α → Option β} : ∀ {xs : List α}, (xs.findSome? f).isSome = true ↔ ∃ x ∈ xs, (f x).isSome = true := by
  intro xs
  rw [List.findSome?_isSome_iff]

theorem bind_isSome {B : Type} {l : Lang B} {o : Overlay B} {i : Input} {r : Bool} (h : admit l o i = some r) :
    (reduce l o i).isSome = true ↔ ∃ p ∈ o.pats, (l.bind r o.binds i p).isSome = true := by
  rw [reduce, Option.isSome_map, bindPattern, h, Option.bind_some]
  cases hx : o.axPats.findSome? fun p => (l.bind r o.binds i p).map fun b => (p, true, b) with
  | some x =>
    have : ∃ p ∈ o.axPats, (l.bind r o.binds i p).isSome = true := by
      have := find_isSome.1 (by rw [hx]; rfl : (o.axPats.findSome? fun p => (l.bind r o.binds i p).map fun b => (p, true, b)).isSome = true)
      simpa using this
    obtain ⟨p, hp, e⟩ := this
    exact ⟨fun _ => ⟨p, by simp [Overlay.pats, hp], e⟩, fun _ => rfl⟩
  | none =>
    have hn : ∀ p ∈ o.axPats, l.bind r o.binds i p = none := by
      intro p hp
      have := List.findSome?_eq_none_iff.1 hx p hp
      simpa using this
    simp only [find_isSome, Option.isSome_map]
    constructor
    · rintro ⟨p, hp, e⟩
      exact ⟨p, by simp [Overlay.pats, hp], e⟩
    · rintro ⟨p, hp, e⟩
      rcases List.mem_append.1 hp with hp | hp
      · rw [hn p hp] at e; cases e
      · exact ⟨p, hp, e⟩

theorem reduce_shape {B : Type} {l : Lang B} {o o1 o2 : Overlay B} {i : Input} (h : reduce l o i = some (o1, o2)) :
    (∃ r, admit l o i = some r) ∧ o2 = o ∧ (∀ j, j ∈ o1.ins ↔ j = i ∨ j ∈ o.ins) ∧ o1.sims = addSims l o.sims i.sims := by
  simp only [reduce, Option.map_eq_some_iff, Prod.mk.injEq] at h
  obtain ⟨x, hx, h1, h2⟩ := h
  simp only [bindPattern, Option.bind_eq_some_iff] at hx
  obtain ⟨r, hr, _⟩ := hx
  refine ⟨⟨r, hr⟩, h2.symm, fun j => ?_, by rw [← h1]; rfl⟩
  rw [← h1, mem_update]
  rfl

theorem inv_reach {B : Type} {l : Lang B} {o : Overlay B} (h : Reach l Single o) : Inv o := by
  induction h with
  | master ax non b => exact .inl ⟨rfl, by simp [Overlay.ins]⟩
  | off _ _ e ih => rw [(reduce_shape e).2.1]; exact ih
  | @took o o1 o2 i _ hs e ih =>
    obtain ⟨⟨r, hr⟩, _, hm, hsim⟩ := reduce_shape e
    have ha := (admit_some ih hs hr).1
    rcases hs.cases with e0 | ⟨s, e0⟩
    · rw [e0, addSims] at hsim
      rcases ih with ⟨h0, h1⟩ | ⟨t, h0, h1, j, hj, ej⟩
      · refine .inl ⟨hsim.trans h0, fun j hj => ?_⟩
        rcases (hm j).1 hj with rfl | hj
        · exact e0
        · exact h1 j hj
      · refine .inr ⟨t, hsim.trans h0, fun k hk => ?_, j, (hm j).2 (.inr hj), ej⟩
        rcases (hm k).1 hk with rfl | hk
        · exact .inl e0
        · exact h1 k hk
    · right
      refine ⟨s, ?_, fun k hk => ?_, i, (hm i).2 (.inl rfl), e0⟩
      · rcases ha with k | k | k
        · rw [e0] at k; cases k
        · rw [hsim, k, e0]; simp [addSims]
        · rw [hsim, k, e0, addSims]
          split <;> simp [addSims]
      · rcases (hm k).1 hk with rfl | hk
        · exact .inr e0
        · rcases ih with ⟨h0, h1⟩ | ⟨t, h0, h1, _⟩
          · exact .inl (h1 k hk)
          · have : t = s := by
              rcases ha with k | k | k
              · rw [e0] at k; cases k
              · rw [h0] at k; cases k
              · rw [h0, e0] at k; simpa using k
            exact this ▸ h1 k hk

theorem Inv.at {B : Type} {l : Lang B} {o : Overlay B} (h : Inv o) : C175At l o := by
  rcases h with ⟨h0, h1⟩ | ⟨s, h0, h1, i, hi, ei⟩
  · exact ⟨⟨0, fun i hi => .inl (h1 i hi)⟩, (by rw [h0]; intro s hs; cases hs), fun _ => h1⟩
  · refine ⟨⟨s, fun i hi => (h1 i hi).imp id fun e => by simp [e]⟩, ?_, fun k => by rw [h0] at k; cases k⟩
    intro t ht
    rw [h0, List.mem_singleton] at ht
    exact ⟨i, hi, by simp [ei, ht]⟩

theorem Inv.takes {B : Type} {l : Lang B} {o : Overlay B} (h : Inv o) {i : Input} (hs : Single i) : Takes l o i := by
  unfold Takes
  cases ha : admit l o i with
  | none =>
    rw [reduce, bindPattern, ha]
    refine ⟨fun k => (by cases k), fun ⟨k1, k2, _⟩ => ?_⟩
    rcases admit_none h hs ha with k | k
    · exact absurd k1 k
    · exact absurd k k2
  | some r =>
    rw [bind_isSome ha]
    obtain ⟨c1, c2, c3⟩ := admit_some h hs ha
    constructor
    · rintro ⟨p, hp, e⟩
      obtain ⟨b, hb⟩ := Option.isSome_iff_exists.1 e
      refine ⟨?_, c2, p, hp, r, b, hb, c3⟩
      rcases hs.cases with e0 | ⟨s, e0⟩
      · obtain ⟨s, hs⟩ := (h.at (l := l)).one
        exact ⟨s, fun j hj => (List.mem_cons.1 hj).elim (fun k => .inl (k ▸ e0)) (hs j)⟩
      · refine ⟨s, fun j hj => ?_⟩
        rcases List.mem_cons.1 hj with rfl | hj
        · exact .inr (by simp [e0])
        · rcases h with ⟨h0, h1⟩ | ⟨t, h0, h1, _⟩
          · exact .inl (h1 j hj)
          · rcases c1 with k | k | k
            · rw [e0] at k; cases k
            · rw [h0] at k; cases k
            · rw [h0] at k
              exact (h1 j hj).imp id fun e => by rw [e, k, e0]; simp
    · rintro ⟨_, _, p, hp, r', b, hb, hr⟩
      have : r' = r := Bool.eq_iff_iff.2 (hr.trans c3.symm)
      exact ⟨p, hp, by rw [← this, hb]; rfl⟩

theorem bind_shape {B : Type} {l : Lang B} {o : Overlay B} {i : Input} {x : Nat × Bool × B} (h : bindPattern l o i = some x) :
    ∃ r, admit l o i = some r ∧ l.bind r o.binds i x.1 = some x.2.2 ∧ if x.2.1 then x.1 ∈ o.axPats else x.1 ∈ o.nonPats := by
  simp only [bindPattern, Option.bind_eq_some_iff] at h
  obtain ⟨r, hr, h⟩ := h
  refine ⟨r, hr, ?_⟩
  split at h
  · rename_i y hy
    cases h
    obtain ⟨p, hp, e⟩ := List.exists_of_findSome?_eq_some hy
    obtain ⟨b, hb, rfl⟩ := Option.map_eq_some_iff.1 e
    exact ⟨hb, hp⟩
  · obtain ⟨p, hp, e⟩ := List.exists_of_findSome?_eq_some h
    obtain ⟨b, hb, rfl⟩ := Option.map_eq_some_iff.1 e
    exact ⟨hb, hp⟩

theorem Inv.gives {B : Type} {l : Lang B} {o : Overlay B} (h : Inv o) {i : Input} (hs : Single i) : Gives l o i := by
  intro o1 o2 e
  simp only [reduce, Option.map_eq_some_iff, Prod.mk.injEq] at e
  obtain ⟨⟨p, ax, b⟩, hx, h1, h2⟩ := e
  obtain ⟨r, hr, hb, hp⟩ := bind_shape hx
  have hl : o.pats.length ≠ 1 → (o.axPats.length + o.nonPats.length == 1) = false := by
    intro k
    rw [Overlay.pats, List.length_append] at k
    simpa using k
  refine ⟨h2.symm, ?_, p, r, by rw [← h1]; exact hb, (admit_some h hs hr).2.2, ?_, fun k => ?_⟩
  · rw [← h1]
    cases ax
    · show (o.axIns ++ (o.nonIns ++ [i])).Perm (i :: (o.axIns ++ o.nonIns))
      rw [← List.append_assoc]
      exact List.perm_append_singleton _ _
    · simp only [update, Overlay.ins, if_true, List.append_assoc]
      exact List.perm_middle
  · cases ax
    · exact List.mem_append_right _ hp
    · exact List.mem_append_left _ hp
  · rw [← h1]
    simp only [hl k]
    cases ax
    · simp only [update, Overlay.pats]
      exact List.perm_middle.symm.trans ((List.perm_cons_erase hp).symm.append_left _)
    · simp only [update, Overlay.pats]
      exact (List.perm_cons_erase hp).symm.append_right _

/-- C175 in part: it holds when predictions are in one simulation at most.  Missing: predictions in several simulations, which are
taken unchecked, and after which nothing simulated is taken. -/
theorem C175_simulations_partial {B : Type} (l : Lang B) (o : Overlay B) (h : Reach l Single o) :
    C175At l o ∧ ∀ i, Single i → Takes l o i ∧ Gives l o i :=
  ⟨(inv_reach h).at, fun _ hs => ⟨(inv_reach h).takes hs, (inv_reach h).gives hs⟩⟩

/-- A map is the times of the first input; inputs match patterns of the same number modulo 10. -/
def exLang : Lang (Option (Int × Int)) where
  bind r b i p := if i.id % 10 = p then (if r || b.isNone then some (some (i.after, i.before)) else some b) else none
  fwdAfter b := (b.getD (0, 0)).1
  fwdBefore b := (b.getD (0, 0)).2
  root s := s / 10
  rootOf s := s / 10

def master : Overlay (Option (Int × Int)) := { axPats := [1], nonPats := [2, 3, 4], binds := none }

/-- A prediction of the simulation 10; one of 20 and 30; one of 10 and 20; a fact. -/
def inA : Input := ⟨12, [10], 0, 100⟩
def inB : Input := ⟨13, [20, 30], 0, 100⟩
def inC : Input := ⟨13, [10, 20], 0, 100⟩
def inD : Input := ⟨14, [10], 0, 100⟩
def fact : Input := ⟨11, [], 200, 300⟩

/-- The overlay after the inputs, if it takes them all. -/
def after : List Input → Option (Overlay (Option (Int × Int)))
  | [] => some master
  | i :: is => (after is).bind fun o => (reduce exLang o i).map Prod.fst

theorem after_reach {P : Input → Prop} : ∀ {is : List Input} {o}, after is = some o → (∀ i ∈ is, P i) → Reach exLang P o
  | [], _, e, _ => by cases e; exact .master _ _ _
  | i :: is, o, e, h => by
    simp only [after, Option.bind_eq_some_iff, Option.map_eq_some_iff] at e
    obtain ⟨o', e1, ⟨a, b⟩, e2, rfl⟩ := e
    exact .took (after_reach e1 fun j hj => h j (List.mem_cons_of_mem _ hj)) (h i List.mem_cons_self) e2

/-- C175 does not hold: a prediction that is in several simulations is put together with one of another simulation, and the instance is
said to be in all of them; and when it has been taken, predictions in one of its simulations are refused. -/
theorem C175_simulations_violated : ¬ C175_full ∧
    (∃ o, after [inB, inA] = some o ∧ ¬ Together o.ins ∧ o.sims = [10, 20, 30]) ∧
    ∃ o, after [inC, inA] = some o ∧ Together (inD :: o.ins) ∧ Matches exLang o inD ∧ ¬ Early exLang o inD ∧ reduce exLang o inD = none := by
  have h1 : ∃ o, after [inB, inA] = some o ∧ ¬ Together o.ins ∧ o.sims = [10, 20, 30] := by
    refine ⟨_, rfl, ?_, by decide⟩
    rintro ⟨s, hs⟩
    have a1 := hs inA (by decide)
    have a2 := hs inB (by decide)
    simp [inA, inB] at a1 a2
    omega
  refine ⟨fun h => ?_, h1, _, rfl, ?_, ?_, ?_, by decide⟩
  · obtain ⟨o, e, hn, _⟩ := h1
    exact hn (h _ _ _ (after_reach e fun _ _ => trivial)).1.one
  · exact ⟨10, by decide⟩
  · refine ⟨4, by decide, false, some (0, 100), by decide, ?_⟩
    constructor
    · intro k; cases k
    · rintro (k | k)
      · exact absurd k (by decide)
      · exact absurd k.2.1 (by decide)
  · exact fun k => absurd k.2.1 (by decide)

/-- A fact that is an axiom, then a prediction of a later time, of which the times are taken; and one of another simulation that is
refused, as is one that is earlier. -/
theorem C175_nonvacuous :
    (∃ o, after [⟨12, [10], 400, 500⟩, fact] = some o ∧ Reach exLang Single o ∧ o.sims = [10] ∧ o.binds = some (400, 500) ∧
      (reduce exLang o ⟨13, [10], 400, 500⟩).isSome = true ∧ reduce exLang o ⟨13, [20], 400, 500⟩ = none) ∧
    ∃ o, after [fact] = some o ∧ Early exLang o inA ∧ Late exLang o ⟨12, [10], 400, 500⟩ ∧ reduce exLang o inA = none :=
  ⟨⟨_, rfl, after_reach (is := [⟨12, [10], 400, 500⟩, fact]) rfl (by unfold Single; decide), by decide, by decide, by decide, by decide⟩,
    ⟨_, rfl, by unfold Early; decide, by unfold Late; decide, by decide⟩⟩

end Verif.Mix
