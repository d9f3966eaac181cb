import Verif.Propagation.Model
import Mathlib.Tactic.NormNum
/-!
# Property C26: propagation of saliency changes
-/
namespace Verif.Propagation

/-- `b` is a neighbour of `a`: `a` is a marker that refers to it, or it is a marker of `a`. -/
def Next (g : Graph) (a b : Nat) : Prop := g.isMarker a = true ∧ b ∈ g.refs a ∨ b ∈ g.markers a

theorem mem_next {g : Graph} {a b : Nat} : b ∈ g.next a ↔ Next g a b := by
  unfold Graph.next Next
  by_cases h : g.isMarker a = true <;> simp [h]

/-- `b` is reached from `a` by propagation of `change`: each object passed on the way lets the
change through (its threshold is exceeded), and the way does not pass the root. -/
inductive Reached (g : Graph) (change : Rat) (a : Nat) : Nat → Prop
  | first {b : Nat} : |change| > g.thr a → Next g a b → b ≠ g.root → Reached g change a b
  | step {b c : Nat} : Reached g change a b → |change| > g.thr b → Next g b c → c ≠ g.root →
      Reached g change a c

/-- C26, full statement: the propagation terminates, and jobs are pushed exactly for the objects
reached (other than the origin), each once. -/
def C26_full : Prop :=
  ∀ (g : Graph) (change : Rat) (o : Nat), ∃ n, ∀ fuel ≥ n, ∃ jobs, start g change fuel o = some jobs ∧
    jobs.Nodup ∧ ∀ x, x ∈ jobs ↔ x ≠ o ∧ Reached g change o x

theorem propagate_eq (g : Graph) (change : Rat) (fuel o : Nat) (s : St) :
    propagate g change (fuel + 2) o s =
      some (if o = g.root ∨ o ∈ s.path then s
        else { path := s.path ++ [o], jobs := s.jobs ++ [o] }) := by
  simp only [propagate, initiate]
  by_cases h1 : o = g.root
  · simp [h1]
  · by_cases h2 : o ∈ s.path
    · simp [h2]
    · simp [h1, h2]

theorem fold_eq (g : Graph) (change : Rat) (fuel : Nat) (l : List Nat) (o : Nat) (s : St)
    (hs : s.path = o :: s.jobs) (hn : s.path.Nodup) :
    ∃ s', l.foldlM (fun s x => propagate g change (fuel + 2) x s) s = some s' ∧
      s'.path = o :: s'.jobs ∧ s'.path.Nodup ∧
      ∀ x, x ∈ s'.jobs ↔ x ∈ s.jobs ∨ (x ∈ l ∧ x ≠ g.root ∧ x ≠ o) := by
  induction l generalizing s with
  | nil => exact ⟨s, rfl, hs, hn, by simp⟩
  | cons a l ih =>
    rw [List.foldlM_cons, propagate_eq]
    simp only [Option.bind_eq_bind, Option.bind_some]
    by_cases ha : a = g.root ∨ a ∈ s.path
    · rw [if_pos ha]
      obtain ⟨s', e, h1, h2, h3⟩ := ih s hs hn
      refine ⟨s', e, h1, h2, ?_⟩
      intro x
      rw [h3]
      constructor
      · rintro (h | ⟨h, h', h''⟩)
        · exact Or.inl h
        · exact Or.inr ⟨List.mem_cons_of_mem _ h, h', h''⟩
      · rintro (h | ⟨h, h', h''⟩)
        · exact Or.inl h
        · rcases List.mem_cons.mp h with rfl | h
          · rcases ha with ha | ha
            · exact absurd ha h'
            · rw [hs] at ha
              rcases List.mem_cons.mp ha with ha | ha
              · exact absurd ha h''
              · exact Or.inl ha
          · exact Or.inr ⟨h, h', h''⟩
    · rw [if_neg ha]
      push Not at ha
      obtain ⟨s', e, h1, h2, h3⟩ := ih { path := s.path ++ [a], jobs := s.jobs ++ [a] }
        (by simp [hs]) (by
          show (s.path ++ [a]).Nodup
          rw [List.nodup_append]
          refine ⟨hn, by simp, ?_⟩
          intro x hx y hy
          simp at hy; subst hy
          rintro rfl; exact ha.2 hx)
      refine ⟨s', e, h1, h2, ?_⟩
      intro x
      have hao : a ≠ o := fun h => ha.2 (by rw [hs, h]; simp)
      rw [h3]
      simp only [List.mem_append, List.mem_cons, List.not_mem_nil, or_false]
      constructor
      · rintro ((h | rfl) | ⟨h, h', h''⟩)
        · exact Or.inl h
        · exact Or.inr ⟨Or.inl rfl, ha.1, hao⟩
        · exact Or.inr ⟨Or.inr h, h', h''⟩
      · rintro (h | ⟨rfl | h, h', h''⟩)
        · exact Or.inl (Or.inl h)
        · exact Or.inl (Or.inr rfl)
        · exact Or.inr ⟨h, h', h''⟩

/-- C26, proved part: the propagation terminates on every graph, cyclic or not; jobs are pushed
exactly for the direct neighbours of the object other than itself and the root, each once, and none
unless the object's own threshold is exceeded; so every job is for an object reached. Missing: the
objects reached in two hops or more, for which the statement is false. -/
theorem C26_propagation_partial (g : Graph) (change : Rat) (o : Nat) :
    ∀ fuel ≥ 2, ∃ jobs, start g change fuel o = some jobs ∧ jobs.Nodup ∧
      (∀ x, x ∈ jobs ↔ |change| > g.thr o ∧ Next g o x ∧ x ≠ g.root ∧ x ≠ o) ∧
      (∀ x ∈ jobs, x ≠ o ∧ Reached g change o x) := by
  intro fuel hf
  obtain ⟨n, rfl⟩ : ∃ n, fuel = n + 2 := ⟨fuel - 2, by omega⟩
  have main : ∃ jobs, start g change (n + 2) o = some jobs ∧ jobs.Nodup ∧
      (∀ x, x ∈ jobs ↔ |change| > g.thr o ∧ Next g o x ∧ x ≠ g.root ∧ x ≠ o) := by
    unfold start
    by_cases h : |change| > g.thr o
    · rw [if_pos h]
      obtain ⟨s', e, h1, h2, h3⟩ := fold_eq g change n (g.next o) o { path := [o], jobs := [] } rfl
        (by simp)
      refine ⟨s'.jobs, by rw [e]; rfl, ?_, ?_⟩
      · rw [h1] at h2; exact (List.nodup_cons.mp h2).2
      · intro x; rw [h3, mem_next]; simp [h]
    · rw [if_neg h]
      exact ⟨[], rfl, by simp, by simp [h]⟩
  obtain ⟨jobs, e, hn, hx⟩ := main
  refine ⟨jobs, e, hn, hx, ?_⟩
  intro x h
  obtain ⟨h1, h2, h3, h4⟩ := (hx x).mp h
  exact ⟨h4, .first h1 h2 h3⟩

/-- Object 1 has the marker 2, which refers to 1 and 3. -/
def exGraph : Graph where
  isMarker o := o == 2
  refs o := if o = 2 then [1, 3] else []
  markers o := if o = 1 then [2] else if o = 3 then [2] else []
  thr _ := 0
  root := 0

/-- The full statement fails: the change of object 1 reaches marker 2 but not object 3 behind
it, since the object just visited is already on the path when its own neighbours are to be
visited. -/
theorem C26_propagation_violated :
    ¬ C26_full ∧ ∀ fuel ≥ 2, start exGraph 1 fuel 1 = some [2] := by
  have main : ∀ fuel ≥ 2, start exGraph 1 fuel 1 = some [2] := by
    intro fuel hf
    obtain ⟨n, rfl⟩ : ∃ n, fuel = n + 2 := ⟨fuel - 2, by omega⟩
    have h : |(1 : Rat)| > exGraph.thr 1 := by simp [exGraph]
    rw [start, if_pos h]
    have hx : exGraph.next 1 = [2] := by decide
    rw [hx]
    simp [propagate_eq, exGraph]
  refine ⟨?_, main⟩
  intro hf
  obtain ⟨n, hn⟩ := hf exGraph 1 1
  obtain ⟨jobs, e, _, hx⟩ := hn (n + 2) (by omega)
  rw [main _ (by omega)] at e
  cases e
  have : (3 : Nat) ∈ [2] := (hx 3).mpr ⟨by omega,
    .step (b := 2) (.first (by simp [exGraph]) (mem_next.1 (by decide)) (by decide)) (by simp [exGraph])
      (mem_next.1 (by decide)) (by decide)⟩
  simp at this

/-- Hypotheses met: marker 2 has two neighbours, both notified. -/
example : start exGraph 1 2 2 = some [1, 3] := by
  have h : |(1 : Rat)| > exGraph.thr 2 := by simp [exGraph]
  rw [start, if_pos h, show exGraph.next 2 = [1, 3] by decide]
  have := propagate_eq exGraph 1 0
  simp only [Nat.zero_add] at this
  simp only [List.foldlM_cons, List.foldlM_nil, this]
  simp [exGraph]

end Verif.Propagation
