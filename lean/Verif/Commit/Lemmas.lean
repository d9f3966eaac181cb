import Verif.Commit.Spec
import Mathlib.Data.List.Induction
/-!
# Lemmas on commitment
-/
namespace Verif.Commit
open Verif.F32 (Arith)
open Verif.Abduce (Mode)

/-- The outcomes of one kind. -/
def pick (W : Nat → SimD) (me : Nat) (ok : Bool) (m : Mode) (x : Outcome) : Option (Outcome × Nat) :=
  match x.sims.find? (fun s => (W s).root == me) with
  | none => none
  | some s => if x.goal.isSome ∧ x.success = ok ∧ (W s).mode = m then some (x, s) else none

theorem take_lists (W : Nat → SimD) (me : Nat) (L : Lists) (x : Outcome) :
    (take W me L x).must = L.must ++ (pick W me true .mandatory x).toList ∧
    (take W me L x).may = L.may ++ (pick W me true .optional x).toList ∧
    (take W me L x).mustFail = L.mustFail ++ (pick W me false .mandatory x).toList ∧
    (take W me L x).mayFail = L.mayFail ++ (pick W me false .optional x).toList := by
  unfold take pick
  cases hf : x.sims.find? (fun s => (W s).root == me) with
  | none => simp
  | some s =>
    dsimp only
    cases hg : x.goal with
    | none => simp
    | some t =>
      simp only [Option.isSome_some, if_true, true_and]
      unfold store
      cases hs : x.success <;> cases hm : (W s).mode <;> simp

theorem gather_lists (W : Nat → SimD) (me : Nat) (h : List Outcome) :
    (gather W me h).must = h.filterMap (pick W me true .mandatory) ∧
    (gather W me h).may = h.filterMap (pick W me true .optional) ∧
    (gather W me h).mustFail = h.filterMap (pick W me false .mandatory) ∧
    (gather W me h).mayFail = h.filterMap (pick W me false .optional) := by
  have key : ∀ (h : List Outcome) (L : Lists),
      (h.foldl (take W me) L).must = L.must ++ h.filterMap (pick W me true .mandatory) ∧
      (h.foldl (take W me) L).may = L.may ++ h.filterMap (pick W me true .optional) ∧
      (h.foldl (take W me) L).mustFail = L.mustFail ++ h.filterMap (pick W me false .mandatory) ∧
      (h.foldl (take W me) L).mayFail = L.mayFail ++ h.filterMap (pick W me false .optional) := by
    intro h
    induction h with
    | nil => intro L; simp
    | cons x h ih =>
      intro L
      have app : ∀ (f : Outcome → Option (Outcome × Nat)), (x :: h).filterMap f = (f x).toList ++ h.filterMap f := by
        intro f
        cases hx : f x <;> simp [hx]
      obtain ⟨h1, h2, h3, h4⟩ := take_lists W me L x
      obtain ⟨i1, i2, i3, i4⟩ := ih (take W me L x)
      refine ⟨?_, ?_, ?_, ?_⟩
      · rw [List.foldl_cons, i1, h1, app, List.append_assoc]
      · rw [List.foldl_cons, i2, h2, app, List.append_assoc]
      · rw [List.foldl_cons, i3, h3, app, List.append_assoc]
      · rw [List.foldl_cons, i4, h4, app, List.append_assoc]
  obtain ⟨h1, h2, h3, h4⟩ := key h {}
  exact ⟨by simpa [gather] using h1, by simpa [gather] using h2, by simpa [gather] using h3, by simpa [gather] using h4⟩

theorem pick_iff {W : Nat → SimD} {me : Nat} {h : List Outcome} (hs : Single h) (ok : Bool) (m : Mode) (x : Outcome) (s : Nat) :
    (x, s) ∈ h.filterMap (pick W me ok m) ↔ Seen W me h x s ∧ x.success = ok ∧ (W s).mode = m := by
  rw [List.mem_filterMap]
  constructor
  · rintro ⟨y, hy, hp⟩
    unfold pick at hp
    cases hf : y.sims.find? (fun s => (W s).root == me) with
    | none => rw [hf] at hp; cases hp
    | some u =>
      rw [hf] at hp
      dsimp only at hp
      split at hp
      · rename_i hc
        cases hp
        obtain ⟨u', hu⟩ := hs x hy (Option.isSome_iff_ne_none.mp hc.1)
        rw [hu] at hf
        simp only [List.find?_singleton] at hf
        split at hf
        · cases hf
          rename_i hr
          exact ⟨⟨hy, Option.isSome_iff_ne_none.mp hc.1, hu, by simpa using hr⟩, hc.2.1, hc.2.2⟩
        · cases hf
      · cases hp
  · rintro ⟨⟨hx, hg, hu, hr⟩, h1, h2⟩
    refine ⟨x, hx, ?_⟩
    unfold pick
    rw [hu]
    simp [hr, h1, h2, Option.isSome_iff_ne_none.mpr hg]

theorem alive_iff {inv : Nat → Bool} {x : Outcome} {s : Nat} (hu : x.sims = [s]) :
    alive inv (x, s) = true ↔ Live inv x s := by
  unfold alive Live
  rw [hu]
  cases hd : x.dead <;> cases hi : inv s <;> simp [hi]

theorem harms_iff {A : Arith} {now : Int} {mine : Tgt} {x : Outcome} :
    harms A now mine x = true ↔ ∃ t, x.goal = some t ∧ Stronger A now t mine := by
  unfold harms Stronger
  cases x.goal <;> simp

theorem stopAll_iff (L : Lists) (inv : Nat → Bool) (s : Nat) :
    stopAll L inv s = true ↔ inv s = true ∨ ∃ p, (p ∈ L.mustFail ∨ p ∈ L.mayFail ∨ p ∈ L.must ∨ p ∈ L.may) ∧ p.2 = s := by
  unfold stopAll
  have key : ∀ (l : Sols) (inv : Nat → Bool), l.foldl (fun i p => stop i p.2) inv s = true ↔ inv s = true ∨ ∃ p ∈ l, p.2 = s := by
    intro l
    induction l with
    | nil => intro inv; simp
    | cons p l ih =>
      intro inv
      rw [List.foldl_cons, ih]
      simp only [stop, Bool.or_eq_true, beq_iff_eq, List.mem_cons, exists_eq_or_imp]
      constructor
      · rintro ((h | h) | h)
        · exact Or.inr (Or.inl h.symm)
        · exact Or.inl h
        · exact Or.inr (Or.inr h)
      · rintro (h | h | h)
        · exact Or.inl (Or.inr h)
        · exact Or.inl (Or.inl h.symm)
        · exact Or.inr h
  rw [key]
  simp only [List.mem_append, or_assoc]

/-- The loop that drops harmful solutions, in which each prediction has one simulation. -/
theorem drop_iff (A : Arith) (now : Int) (mine : Tgt) (l : Sols) (hl : ∀ p ∈ l, p.1.sims = [p.2]) (s : Nat) :
    ∀ inv, dropHarmful A now mine l inv s = true ↔ inv s = true ∨
      ∃ p ∈ l, p.2 = s ∧ p.1.dead = false ∧ harms A now mine p.1 = true := by
  unfold dropHarmful
  induction l with
  | nil => intro inv; simp
  | cons p l ih =>
    intro inv
    obtain ⟨x, u⟩ := p
    rw [List.foldl_cons, ih (fun q hq => hl q (List.mem_cons_of_mem _ hq))]
    have hu := hl (x, u) (by simp)
    dsimp only at hu ⊢
    have ha := alive_iff (inv := inv) hu
    simp only [List.mem_cons, exists_eq_or_imp]
    by_cases hc : (alive inv (x, u) && harms A now mine x) = true
    · rw [if_pos hc]
      rw [Bool.and_eq_true, ha] at hc
      simp only [stop, Bool.or_eq_true, beq_iff_eq]
      constructor
      · rintro ((h | h) | h)
        · exact Or.inr (Or.inl ⟨h.symm, hc.1.1, hc.2⟩)
        · exact Or.inl h
        · exact Or.inr (Or.inr h)
      · rintro (h | ⟨h, _⟩ | h)
        · exact Or.inl (Or.inr h)
        · exact Or.inl (Or.inl h.symm)
        · exact Or.inr h
    · rw [if_neg hc]
      rw [Bool.and_eq_true, ha, not_and] at hc
      constructor
      · rintro (h | h)
        · exact Or.inl h
        · exact Or.inr (Or.inr h)
      · rintro (h | ⟨rfl, h1, h2⟩ | h)
        · exact Or.inl h
        · by_cases hi : inv u = true
          · exact Or.inl hi
          · exact absurd h2 (hc ⟨h1, Bool.eq_false_iff.mpr hi⟩)
        · exact Or.inr h

theorem subDrop_iff (A : Arith) (now : Int) (mine : Tgt) (l : Sols) (s : Nat) :
    ∀ inv, subDrop A now mine l inv s = true ↔ inv s = true ∨ ∃ p ∈ l, p.2 = s ∧ harms A now mine p.1 = true := by
  unfold subDrop
  induction l with
  | nil => intro inv; simp
  | cons p l ih =>
    intro inv
    rw [List.foldl_cons, ih]
    simp only [List.mem_cons, exists_eq_or_imp]
    by_cases hc : (!inv p.2 && harms A now mine p.1) = true
    · rw [if_pos hc]
      rw [Bool.and_eq_true] at hc
      simp only [stop, Bool.or_eq_true, beq_iff_eq]
      constructor
      · rintro ((h | h) | h)
        · exact Or.inr (Or.inl ⟨h.symm, hc.2⟩)
        · exact Or.inl h
        · exact Or.inr (Or.inr h)
      · rintro (h | ⟨h, _⟩ | h)
        · exact Or.inl (Or.inr h)
        · exact Or.inl (Or.inl h.symm)
        · exact Or.inr h
    · rw [if_neg hc]
      rw [Bool.and_eq_true, not_and] at hc
      constructor
      · rintro (h | h)
        · exact Or.inl h
        · exact Or.inr (Or.inr h)
      · rintro (h | ⟨rfl, h2⟩ | h)
        · exact Or.inl h
        · by_cases hi : inv p.2 = true
          · exact Or.inl hi
          · exact absurd h2 (hc (by simpa using hi))
        · exact Or.inr h

theorem gt_trans {a b c : Ext} (h : b.gt a = true) (h' : c.gt a = false) : c.gt b = false := by
  cases a <;> cases b <;> cases c <;> simp_all [Ext.gt]
  linarith

/-- What the choice of the best gives. -/
theorem best_spec (A : Arith) (now : Int) (W : Nat → SimD) (inv : Nat → Bool) (l : Sols) :
    (best A now W inv l = none → ∀ p ∈ l, alive inv p = false) ∧
    ∀ b, best A now W inv l = some b → b ∈ l ∧ alive inv b = true ∧
      ∀ p ∈ l, alive inv p = true → ((W p.2).rank A now).gt ((W b.2).rank A now) = false := by
  unfold best
  have self : ∀ e : Ext, e.gt e = false := by intro e; cases e <;> simp [Ext.gt]
  induction l using List.reverseRecOn with
  | nil => simp
  | append_singleton l p ih =>
    rw [List.foldl_append, List.foldl_cons, List.foldl_nil]
    generalize hr : List.foldl (fun b p =>
      if alive inv p then
        match b with
        | none => some p
        | some q => if ((W p.2).rank A now).gt ((W q.2).rank A now) then some p else b
      else b) none l = r at ih ⊢
    by_cases ha : alive inv p = true
    · rw [if_pos ha]
      cases r with
      | none =>
        dsimp only
        refine ⟨by simp, ?_⟩
        rintro b hb
        cases hb
        refine ⟨by simp, ha, ?_⟩
        intro q hq hqa
        rcases List.mem_append.mp hq with hq | hq
        · rw [ih.1 rfl q hq] at hqa; cases hqa
        · rw [List.mem_singleton] at hq; subst hq; exact self _
      | some q =>
        obtain ⟨h1, h2, h3⟩ := ih.2 q rfl
        dsimp only
        by_cases hg : ((W p.2).rank A now).gt ((W q.2).rank A now) = true
        · rw [if_pos hg]
          refine ⟨by simp, ?_⟩
          rintro b hb
          cases hb
          refine ⟨by simp, ha, ?_⟩
          intro u hu hua
          rcases List.mem_append.mp hu with hu | hu
          · exact gt_trans hg (h3 u hu hua)
          · rw [List.mem_singleton] at hu; subst hu; exact self _
        · rw [if_neg hg]
          refine ⟨by simp, ?_⟩
          rintro b hb
          cases hb
          refine ⟨List.mem_append.mpr (Or.inl h1), h2, ?_⟩
          intro u hu hua
          rcases List.mem_append.mp hu with hu | hu
          · exact h3 u hu hua
          · rw [List.mem_singleton] at hu; subst hu; exact Bool.eq_false_iff.mpr hg
    · rw [if_neg ha]
      refine ⟨?_, ?_⟩
      · intro hn q hq
        rcases List.mem_append.mp hq with hq | hq
        · exact ih.1 hn q hq
        · rw [List.mem_singleton] at hq; subst hq; exact Bool.eq_false_iff.mpr ha
      · intro b hb
        obtain ⟨h1, h2, h3⟩ := ih.2 b hb
        refine ⟨List.mem_append.mpr (Or.inl h1), h2, ?_⟩
        intro u hu hua
        rcases List.mem_append.mp hu with hu | hu
        · exact h3 u hu hua
        · rw [List.mem_singleton] at hu; subst hu; exact absurd hua ha

end Verif.Commit
