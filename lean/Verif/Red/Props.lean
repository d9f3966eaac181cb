import Verif.Red.Model
/-!
# Property C40
-/
namespace Verif.Red

/-- An input is to be reduced by a section: its pattern is met (an anti-pattern is met when neither the
skeleton nor the guards are). -/
def Meets (s : Section) (i : Nat) : Prop :=
  (s.kind = .ptn ∧ s.skel i = true ∧ s.guards i = true) ∨ (s.kind = .antiPtn ∧ s.skel i = false ∧ s.guards i = false)

/-- The property, for sections with productions: each input that meets the positive pattern gives its
productions, each other one that meets the negative pattern gives those of the negative section,
and there are no other productions. -/
def C40_full : Prop :=
  ∀ (defined : Nat → Bool) (pos neg : Section) (count np nn : Nat), pos.prods = some np → 0 < np →
    neg.prods = some nn → 0 < nn → pos.kind ≠ .other → neg.kind ≠ .other →
    ∀ tag i k, (tag, i, k) ∈ (red defined pos neg count).2 ↔
      (1 ≤ i ∧ i ≤ count ∧ defined i = true) ∧
      ((tag = true ∧ Meets pos i ∧ 1 ≤ k ∧ k ≤ np) ∨ (tag = false ∧ ¬ Meets pos i ∧ Meets neg i ∧ 1 ≤ k ∧ k ≤ nn))

theorem matches_iff (s : Section) (i : Nat) : matches_ s i = true ↔ Meets s i := by
  unfold matches_ Meets
  cases s.kind <;> cases s.skel i <;> cases s.guards i <;> simp

theorem mem_build (tag t : Bool) (i j k n : Nat) : (t, j, k) ∈ build tag i n ↔ t = tag ∧ j = i ∧ 1 ≤ k ∧ k ≤ n := by
  simp only [build, List.mem_map, List.mem_range, Prod.mk.injEq]
  constructor
  · rintro ⟨a, ha, rfl, rfl, rfl⟩; exact ⟨rfl, rfl, by omega, by omega⟩
  · rintro ⟨rfl, rfl, h1, h2⟩; exact ⟨k - 1, by omega, rfl, rfl, by omega⟩

/-! ## What the loop does -/

/-- The loop processes a first part of the list, all of whose defined inputs meet the pattern, and
stops at the first defined input that does not. -/
theorem loop_spec (defined : Nat → Bool) (s : Section) (tag : Bool) (n : Nat) (todo : List Nat)
    (out : List (Bool × Nat × Nat)) :
    ∃ done rest, todo = done ++ rest ∧ (loop defined s tag n todo out).1 = rest ∧
      (loop defined s tag n todo out).2 = out ++ ((done.filter defined).map fun i => build tag i n).flatten ∧
      (∀ i ∈ done, defined i = true → Meets s i) ∧
      (rest = [] ∨ ∃ i t, rest = i :: t ∧ defined i = true ∧ ¬ Meets s i) := by
  induction todo generalizing out with
  | nil => exact ⟨[], [], rfl, rfl, by simp [loop], by simp, Or.inl rfl⟩
  | cons i is ih =>
    simp only [loop]
    by_cases hd : defined i = true
    · rw [if_neg (by simp [hd])]
      by_cases hm : matches_ s i = true
      · rw [if_neg (by simp [hm])]
        obtain ⟨done, rest, h1, h2, h3, h4, h5⟩ := ih (out ++ build tag i n)
        refine ⟨i :: done, rest, by simp [h1], h2, ?_, ?_, h5⟩
        · rw [h3, List.filter_cons_of_pos (by simpa using hd)]; simp
        · intro j hj hjd
          rcases List.mem_cons.mp hj with rfl | hj
          · exact (matches_iff s j).mp hm
          · exact h4 j hj hjd
      · rw [if_pos (by simpa using hm)]
        refine ⟨[], i :: is, rfl, rfl, by simp, by simp, Or.inr ⟨i, is, rfl, hd, ?_⟩⟩
        rw [← matches_iff]; exact hm
    · rw [if_pos (by simpa using hd)]
      obtain ⟨done, rest, h1, h2, h3, h4, h5⟩ := ih out
      refine ⟨i :: done, rest, by simp [h1], h2, ?_, ?_, h5⟩
      · rw [h3, List.filter_cons_of_neg (by simpa using hd)]
      · intro j hj hjd
        rcases List.mem_cons.mp hj with rfl | hj
        · exact absurd hjd hd
        · exact h4 j hj hjd

theorem reduce_eq (defined : Nat → Bool) (s : Section) (tag : Bool) (todo : List Nat) (out : List (Bool × Nat × Nat))
    (n : Nat) (hp : s.prods = some n) (hn : 0 < n) (hk : s.kind ≠ .other) :
    reduce defined s tag todo out = loop defined s tag n todo out := by
  unfold reduce
  rw [if_neg hk, hp]
  simp only
  rw [if_neg (by omega)]

theorem mem_groups (l : List Nat) (defined : Nat → Bool) (tag t : Bool) (i k n : Nat) :
    (t, i, k) ∈ ((l.filter defined).map fun i => build tag i n).flatten ↔
      t = tag ∧ i ∈ l ∧ defined i = true ∧ 1 ≤ k ∧ k ≤ n := by
  simp only [List.mem_flatten, List.mem_map, List.mem_filter]
  constructor
  · rintro ⟨g, ⟨j, ⟨h1, h2⟩, rfl⟩, h3⟩
    rw [mem_build] at h3
    obtain ⟨rfl, rfl, h4, h5⟩ := h3
    exact ⟨rfl, h1, h2, h4, h5⟩
  · rintro ⟨rfl, h1, h2, h4, h5⟩
    exact ⟨_, ⟨i, ⟨h1, h2⟩, rfl⟩, (mem_build _ _ _ _ _ _).mpr ⟨rfl, rfl, h4, h5⟩⟩

/-- What `Red` does, for all inputs: the inputs split into three runs in their order; the defined ones of the
first run meet the positive pattern, the next one (if any) does not; the defined ones of the second
run meet the negative pattern; the rest is not looked at. -/
theorem C40_characterised (defined : Nat → Bool) (pos neg : Section) (count np nn : Nat) (hp : pos.prods = some np)
    (hnp : 0 < np) (hq : neg.prods = some nn) (hnn : 0 < nn) (hkp : pos.kind ≠ .other) (hkn : neg.kind ≠ .other) :
    ∃ a b c, (List.range count).map (· + 1) = a ++ (b ++ c) ∧
      (∀ i ∈ a, defined i = true → Meets pos i) ∧
      (b ++ c = [] ∨ ∃ i t, b ++ c = i :: t ∧ defined i = true ∧ ¬ Meets pos i) ∧
      (∀ i ∈ b, defined i = true → Meets neg i) ∧
      (c = [] ∨ ∃ i t, c = i :: t ∧ defined i = true ∧ ¬ Meets neg i) ∧
      ∀ t i k, (t, i, k) ∈ (red defined pos neg count).2 ↔ defined i = true ∧
        ((t = true ∧ i ∈ a ∧ 1 ≤ k ∧ k ≤ np) ∨ (t = false ∧ i ∈ b ∧ 1 ≤ k ∧ k ≤ nn)) := by
  obtain ⟨a, r, h1, h2, h3, h4, h5⟩ := loop_spec defined pos true np ((List.range count).map (· + 1)) []
  obtain ⟨b, c, k1, k2, k3, k4, k5⟩ := loop_spec defined neg false nn r
    (loop defined pos true np ((List.range count).map (· + 1)) []).2
  refine ⟨a, b, c, by rw [h1, k1], h4, by rw [← k1]; exact h5, k4, k5, ?_⟩
  intro t i k
  have hout : ((t, i, k) ∈ (loop defined neg false nn r (loop defined pos true np ((List.range count).map (· + 1)) []).2).2 ↔
      defined i = true ∧ ((t = true ∧ i ∈ a ∧ 1 ≤ k ∧ k ≤ np) ∨ (t = false ∧ i ∈ b ∧ 1 ≤ k ∧ k ≤ nn))) := by
    rw [k3, h3, List.nil_append, List.mem_append, mem_groups, mem_groups]
    constructor
    · rintro (⟨e1, e2, e3, e4⟩ | ⟨e1, e2, e3, e4⟩)
      · exact ⟨e3, Or.inl ⟨e1, e2, e4⟩⟩
      · exact ⟨e3, Or.inr ⟨e1, e2, e4⟩⟩
    · rintro ⟨e3, ⟨e1, e2, e4⟩ | ⟨e1, e2, e4⟩⟩
      · exact Or.inl ⟨e1, e2, e3, e4⟩
      · exact Or.inr ⟨e1, e2, e3, e4⟩
  rw [← hout]
  unfold red
  by_cases h0 : count = 0
  · subst h0
    simp only [List.range_zero, List.map_nil] at h1 hout ⊢
    have ha : a = [] := (List.append_eq_nil_iff.mp h1.symm).1
    have hr : r = [] := (List.append_eq_nil_iff.mp h1.symm).2
    subst ha; subst hr
    have : b = [] := (List.append_eq_nil_iff.mp k1.symm).1
    subst this
    simp [loop]
  · simp only
    rw [if_neg h0, reduce_eq _ _ _ _ _ np hp hnp hkp, reduce_eq _ _ _ _ _ nn hq hnn hkn, h2]
    split
    · rfl
    · rename_i hz
      have hz' := List.length_eq_zero_iff.mp (by simpa using hz)
      rw [hz']

/-! ## C40 -/

/-- Nothing is produced that should not be, except that the negative section may process inputs that
meet the positive pattern; no input is reduced by both; each processed input gives all its productions. -/
theorem C40_sound (defined : Nat → Bool) (pos neg : Section) (count np nn : Nat) (hp : pos.prods = some np)
    (hnp : 0 < np) (hq : neg.prods = some nn) (hnn : 0 < nn) (hkp : pos.kind ≠ .other) (hkn : neg.kind ≠ .other)
    (tag : Bool) (i k : Nat) (h : (tag, i, k) ∈ (red defined pos neg count).2) :
    1 ≤ i ∧ i ≤ count ∧ defined i = true ∧ Meets (if tag then pos else neg) i ∧
      (∀ k', (!tag, i, k') ∉ (red defined pos neg count).2) ∧
      (∀ k', 1 ≤ k' → k' ≤ (if tag then np else nn) → (tag, i, k') ∈ (red defined pos neg count).2) := by
  obtain ⟨a, b, c, h1, h2, h3, h4, h5, h6⟩ := C40_characterised defined pos neg count np nn hp hnp hq hnn hkp hkn
  have hnd : ((List.range count).map (· + 1)).Nodup := by
    refine List.Pairwise.map _ ?_ List.nodup_range
    intro x y hxy e; exact hxy (by omega)
  rw [h1, List.nodup_append] at hnd
  have hdis : ∀ j, j ∈ a → j ∈ b → False := fun j ha hb => hnd.2.2 j ha j (List.mem_append_left _ hb) rfl
  have hin : ∀ j, j ∈ a ∨ j ∈ b → 1 ≤ j ∧ j ≤ count := by
    intro j hj
    have : j ∈ (List.range count).map (· + 1) := by
      rw [h1]
      rcases hj with hj | hj
      · exact List.mem_append_left _ hj
      · exact List.mem_append_right _ (List.mem_append_left _ hj)
    rw [List.mem_map] at this
    obtain ⟨x, hx, rfl⟩ := this
    rw [List.mem_range] at hx
    omega
  rw [h6] at h
  obtain ⟨hd, ⟨rfl, hi, hk1, hk2⟩ | ⟨rfl, hi, hk1, hk2⟩⟩ := h
  · refine ⟨(hin i (Or.inl hi)).1, (hin i (Or.inl hi)).2, hd, h2 i hi hd, ?_, ?_⟩
    · intro k' hk'
      rw [h6] at hk'
      obtain ⟨_, ⟨e, _⟩ | ⟨_, hb, _⟩⟩ := hk'
      · cases e
      · exact hdis i hi hb
    · intro k' q1 q2
      rw [h6]; exact ⟨hd, Or.inl ⟨rfl, hi, q1, q2⟩⟩
  · refine ⟨(hin i (Or.inr hi)).1, (hin i (Or.inr hi)).2, hd, h4 i hi hd, ?_, ?_⟩
    · intro k' hk'
      rw [h6] at hk'
      obtain ⟨_, ⟨_, ha, _⟩ | ⟨e, _⟩⟩ := hk'
      · exact hdis i ha hi
      · cases e
    · intro k' q1 q2
      rw [h6]; exact ⟨hd, Or.inr ⟨rfl, hi, q1, q2⟩⟩

/-- Missing: sets of inputs where one that does not meet the pattern is followed by one that does.
Here every defined input meets one of the patterns, and those that meet the positive one come first. -/
theorem C40_reduction_partial (defined : Nat → Bool) (pos neg : Section) (count np nn : Nat) (hp : pos.prods = some np)
    (hnp : 0 < np) (hq : neg.prods = some nn) (hnn : 0 < nn) (hkp : pos.kind ≠ .other) (hkn : neg.kind ≠ .other)
    (m : Nat) (hm1 : ∀ i, 1 ≤ i → i ≤ count → defined i = true → i ≤ m → Meets pos i)
    (hm2 : ∀ i, 1 ≤ i → i ≤ count → defined i = true → m < i → ¬ Meets pos i ∧ Meets neg i)
    (tag : Bool) (i k : Nat) :
    (tag, i, k) ∈ (red defined pos neg count).2 ↔
      (1 ≤ i ∧ i ≤ count ∧ defined i = true) ∧
      ((tag = true ∧ Meets pos i ∧ 1 ≤ k ∧ k ≤ np) ∨ (tag = false ∧ ¬ Meets pos i ∧ Meets neg i ∧ 1 ≤ k ∧ k ≤ nn)) := by
  obtain ⟨a, b, c, h1, h2, h3, h4, h5, h6⟩ := C40_characterised defined pos neg count np nn hp hnp hq hnn hkp hkn
  have hmem : ∀ j, (1 ≤ j ∧ j ≤ count) ↔ j ∈ a ∨ j ∈ b ∨ j ∈ c := by
    intro j
    rw [← List.mem_append, ← List.mem_append, ← h1, List.mem_map]
    constructor
    · rintro ⟨q1, q2⟩; exact ⟨j - 1, List.mem_range.mpr (by omega), by omega⟩
    · rintro ⟨x, hx, rfl⟩; rw [List.mem_range] at hx; omega
  -- the order of the numbers
  have hsorted : ((List.range count).map (· + 1)).Pairwise (· < ·) := by
    refine List.Pairwise.map _ ?_ List.pairwise_lt_range
    intro x y hxy; omega
  rw [h1, List.pairwise_append] at hsorted
  -- what follows the first run does not meet the positive pattern
  have hrest : ∀ j, j ∈ b ∨ j ∈ c → defined j = true → ¬ Meets pos j ∧ Meets neg j := by
    intro j hj hd
    have hj' : j ∈ b ++ c := by rwa [List.mem_append]
    rcases h3 with h3 | ⟨x, t, hx, hxd, hxm⟩
    · rw [h3] at hj'; cases hj'
    · have hxr := (hmem x).mpr (by
        have : x ∈ b ++ c := by rw [hx]; simp
        rw [List.mem_append] at this
        exact Or.inr this)
      have hxgt : m < x := by
        apply Nat.lt_of_not_le
        intro hle
        exact hxm (hm1 x hxr.1 hxr.2 hxd hle)
      have hge : x ≤ j := by
        have hs := hsorted.2.1
        rw [hx] at hs hj'
        rcases List.mem_cons.mp hj' with rfl | hjt
        · omega
        · exact Nat.le_of_lt ((List.pairwise_cons.mp hs).1 j hjt)
      have hjr := (hmem j).mpr (Or.inr hj)
      exact hm2 j hjr.1 hjr.2 hd (by omega)
  have hc : ∀ j ∈ c, defined j = true → False := by
    intro j hj hd
    rcases h5 with h5 | ⟨x, t, hx, hxd, hxm⟩
    · rw [h5] at hj; cases hj
    · exact hxm (hrest x (Or.inr (by rw [hx]; simp)) hxd).2
  rw [h6]
  constructor
  · rintro ⟨hd, ⟨rfl, hi, hk⟩ | ⟨rfl, hi, hk⟩⟩
    · have := (hmem i).mpr (Or.inl hi)
      exact ⟨⟨this.1, this.2, hd⟩, Or.inl ⟨rfl, h2 i hi hd, hk⟩⟩
    · have := (hmem i).mpr (Or.inr (Or.inl hi))
      have hr := hrest i (Or.inl hi) hd
      exact ⟨⟨this.1, this.2, hd⟩, Or.inr ⟨rfl, hr.1, hr.2, hk⟩⟩
  · rintro ⟨⟨q1, q2, hd⟩, ⟨rfl, hm, hk⟩ | ⟨rfl, hnm, hm, hk⟩⟩
    · rcases (hmem i).mp ⟨q1, q2⟩ with hi | hi
      · exact ⟨hd, Or.inl ⟨rfl, hi, hk⟩⟩
      · exact absurd hm (hrest i hi hd).1
    · rcases (hmem i).mp ⟨q1, q2⟩ with hi | hi | hi
      · exact absurd (h2 i hi hd) hnm
      · exact ⟨hd, Or.inr ⟨rfl, hi, hk⟩⟩
      · exact (hc i hi hd).elim

/-- The operator succeeds exactly when something was produced. -/
theorem C40_answer (defined : Nat → Bool) (pos neg : Section) (count : Nat) :
    (red defined pos neg count).1 = true ↔ (red defined pos neg count).2 ≠ [] := by
  unfold red
  simp only
  split
  · simp
  · split
    · rename_i h
      simp only [ne_eq, true_iff]
      intro he; rw [he] at h; exact h rfl
    · simp

/-- Two inputs; the second meets the positive pattern, the first does not: nothing is produced for the
second. -/
theorem C40_reduction_violated : ¬ C40_full ∧
    red (fun _ => true) ⟨.ptn, fun i => i == 2, fun _ => true, some 1⟩ ⟨.ptn, fun _ => false, fun _ => true, some 1⟩ 2 =
      (false, []) := by
  refine ⟨fun hf => ?_, by decide⟩
  have := (hf (fun _ => true) ⟨.ptn, fun i => i == 2, fun _ => true, some 1⟩
    ⟨.ptn, fun _ => false, fun _ => true, some 1⟩ 2 1 1 rfl (by decide) rfl (by decide) (by decide) (by decide)
    true 2 1).mpr ⟨by decide, Or.inl ⟨rfl, Or.inl ⟨rfl, by decide, rfl⟩, by decide, by decide⟩⟩
  exact absurd this (by decide)

/-- The hypotheses of `C40_reduction_partial` are met: five inputs, one not defined, the first two meet
the positive pattern, the rest the negative one. -/
theorem C40_reduction_nonvacuous :
    red (fun i => i != 2) ⟨.ptn, fun i => decide (i ≤ 3), fun _ => true, some 2⟩
      ⟨.antiPtn, fun i => decide (i ≤ 3), fun _ => false, some 1⟩ 5 =
      (true, [(true, 1, 1), (true, 1, 2), (true, 3, 1), (true, 3, 2), (false, 4, 1), (false, 5, 1)]) ∧
    (∀ i, i ≤ 3 → Meets ⟨.ptn, fun i => decide (i ≤ 3), fun _ => true, some 2⟩ i) ∧
    (∀ i, 3 < i → ¬ Meets ⟨.ptn, fun i => decide (i ≤ 3), fun _ => true, some 2⟩ i ∧
      Meets ⟨.antiPtn, fun i => decide (i ≤ 3), fun _ => false, some 1⟩ i) := by
  refine ⟨by decide, fun i hi => Or.inl ⟨rfl, by simpa using hi, rfl⟩, fun i hi => ⟨?_, Or.inr ⟨rfl, ?_, rfl⟩⟩⟩
  · rintro (⟨_, h, _⟩ | ⟨h, _⟩)
    · simp only [decide_eq_true_eq] at h; omega
    · cases h
  · simpa using hi

end Verif.Red
