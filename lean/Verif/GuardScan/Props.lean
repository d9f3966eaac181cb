import Verif.GuardScan.Model
import Mathlib.Tactic.ByContra
import Mathlib.Data.List.Perm.Basic
import Mathlib.Data.List.Perm.Lattice
/-!
# C42: deciding whether backward chaining is possible
-/
namespace Verif.GuardScan
open Verif.Atom

/-! ## What evaluating guards needs -/

/-- The expression at `i` mentions the variable `v`. -/
inductive Reads (c : Code) : Nat → Nat → Prop
  | ptr {i v} : (isIPtr (c i) || isAssign (c i)) = true → Reads c (ix (c i)) v → Reads c i v
  | var {i} : (isIPtr (c i) || isAssign (c i)) = false → isVar (c i) = true → Reads c i (ix (c i))
  | arg {i j v} : (isIPtr (c i) || isAssign (c i)) = false → isVar (c i) = false →
      (isOp (c i) || isSet (c i)) = true → j < count (c i) → Reads c (i + 1 + j) v → Reads c i v

/-- The expression at `i` is finite, and its compound parts satisfy `K`. -/
inductive Ends (c : Code) (K : Word → Bool) : Nat → Prop
  | ptr {i} : (isIPtr (c i) || isAssign (c i)) = true → Ends c K (ix (c i)) → Ends c K i
  | var {i} : (isIPtr (c i) || isAssign (c i)) = false → isVar (c i) = true → Ends c K i
  | arg {i} : (isIPtr (c i) || isAssign (c i)) = false → isVar (c i) = false → K (c i) = true →
      (∀ j, j < count (c i) → Ends c K (i + 1 + j)) → Ends c K i
  | leaf {i} : (isIPtr (c i) || isAssign (c i)) = false → isVar (c i) = false →
      (isOp (c i) || isSet (c i)) = false → Ends c K i

/-- The expression at `i` is finite. -/
abbrev Finite (c : Code) : Nat → Prop := Ends c fun w => isOp w || isSet w
/-- The expression at `i` is finite and its only compound parts are operators. -/
abbrev Plain (c : Code) : Nat → Prop := Ends c isOp

/-- A guard: an assignment or a condition. Other words in the set are ignored. -/
def IsGuard (c : Code) (g : Nat) : Prop := isIPtr (c g) = true ∨ isAssign (c g) = true

/-- Evaluating guards one after the other, in terms of which variables have a value: an assignment
whose expression has all its variables gives its variable a value; if not, its variable must have one
already; a condition needs all its variables (hlp_overlay.cpp:133-148, hlp_context.cpp:151-162). -/
inductive Runs (c : Code) : (Nat → Prop) → List Nat → Prop
  | nil (B) : Runs c B []
  | other (B g gs) : ¬ IsGuard c g → Runs c B gs → Runs c B (g :: gs)
  | cond (B g gs) : isIPtr (c g) = true → (∀ v, Reads c (ix (c g)) v → B v) → Runs c B gs →
      Runs c B (g :: gs)
  | assign (B g gs) : isAssign (c g) = true → (∀ v, Reads c (ix (c g)) v → B v) →
      Runs c (fun v => B v ∨ v = target (c g)) gs → Runs c B (g :: gs)
  | keep (B g gs) : isAssign (c g) = true → ¬ (∀ v, Reads c (ix (c g)) v → B v) → B (target (c g)) →
      Runs c B gs → Runs c B (g :: gs)

/-- Some order of the guards can be evaluated. -/
def OrderExists (c : Code) (s : Nat) (bound : Nat → Bool) : Prop :=
  ∃ gs, gs.Perm (guards c s) ∧ Runs c (fun v => bound v = true) gs

/-- The scan returns the answer `b`. -/
def Answers (c : Code) (s : Nat) (bound : Nat → Bool) (b : Bool) : Prop :=
  ∃ n, ∀ fuel, n ≤ fuel → scan c s bound fuel = some b

/-- C42 as stated: for guards made of finite expressions, the scan returns, and says yes exactly when
an evaluation order exists. -/
def C42_full : Prop :=
  ∀ (c : Code) (s : Nat) (bound : Nat → Bool), (∀ g ∈ guards c s, IsGuard c g → Finite c (ix (c g))) →
    ∃ b, Answers c s bound b ∧ (b = true ↔ OrderExists c s bound)

/-! ## Proof of the part that holds -/

/-- Guard `g` needs guard `g'`, which assigns a variable it mentions. -/
def Needs (c : Code) (s : Nat) (bound : Nat → Bool) (g' g : Nat) : Prop :=
  g' ≠ g ∧ ∃ v, Reads c (ix (c g)) v ∧ bound v = false ∧ assigner c s v = some g'

/-- The variables that can be computed. -/
inductive Can (c : Code) (s : Nat) (bound : Nat → Bool) : Nat → Prop
  | bound {v} : bound v = true → Can c s bound v
  | guard {g} : g ∈ guards c s → isAssign (c g) = true → (∀ u, Reads c (ix (c g)) u → Can c s bound u) →
      Can c s bound (target (c g))

theorem andAll_spec (F : Nat → Nat → Option Bool) (P : Nat → Prop) : ∀ l : List Nat,
    (∀ j ∈ l, ∃ n b, (∀ m, n ≤ m → F m j = some b) ∧ (b = true ↔ P j)) →
    ∃ n b, (∀ m, n ≤ m → andAll (F m) l = some b) ∧ (b = true ↔ ∀ j ∈ l, P j)
  | [], _ => ⟨0, true, fun _ _ => rfl, by simp⟩
  | j :: js, h => by
    obtain ⟨n1, b1, h1, p1⟩ := h j (by simp)
    obtain ⟨n2, b2, h2, p2⟩ := andAll_spec F P js (fun x hx => h x (by simp [hx]))
    refine ⟨max n1 n2, b1 && b2, ?_, ?_⟩
    · intro m hm
      rw [andAll, h1 m (by omega)]
      cases b1
      · rfl
      · simpa using h2 m (by omega)
    · simp [p1, p2]

theorem isIPtr_not_assign {w : Word} (h : isIPtr w = true) : isAssign w = false := by
  simp only [isIPtr, isAssign, beq_iff_eq] at *
  rw [h]; decide

section
variable {c : Code} {s : Nat} {bound : Nat → Bool}

theorem assigner_some {v g : Nat} (h : assigner c s v = some g) :
    g ∈ guards c s ∧ isAssign (c g) = true ∧ target (c g) = v := by
  have h1 := List.find?_some h
  have h2 := List.mem_of_find?_eq_some h
  simp only [Bool.and_eq_true, beq_iff_eq] at h1
  exact ⟨h2, h1.1, h1.2⟩
theorem assigner_none {v g : Nat} (h : assigner c s v = none) (hg : g ∈ guards c s)
    (ha : isAssign (c g) = true) : target (c g) ≠ v := by
  have := List.find?_eq_none.1 h g hg
  intro h'; simp [ha, h'] at this

/-- Each variable is assigned at most once. -/
def Unique (c : Code) (s : Nat) : Prop :=
  ∀ g ∈ guards c s, ∀ g' ∈ guards c s, isAssign (c g) = true → isAssign (c g') = true →
    target (c g) = target (c g') → g = g'

theorem can_unbound (hu : Unique c s) {v g : Nat} (hb : bound v = false) (hg : assigner c s v = some g) :
    Can c s bound v ↔ ∀ u, Reads c (ix (c g)) u → Can c s bound u := by
  obtain ⟨h1, h2, h3⟩ := assigner_some hg
  constructor
  · intro h
    cases h with
    | bound h => rw [hb] at h; cases h
    | @guard g' hg' ha hr =>
      rw [hu g h1 g' hg' h2 ha h3]; exact hr
  · intro h; rw [← h3]; exact .guard h1 h2 h

theorem not_can_self (hu : Unique c s) {v g : Nat} (hb : bound v = false) (hg : assigner c s v = some g)
    (hr : Reads c (ix (c g)) v) : ¬ Can c s bound v := by
  obtain ⟨h1, h2, h3⟩ := assigner_some hg
  have : ∀ x, Can c s bound x → x ≠ v := by
    intro x hx
    induction hx with
    | bound h => intro e; rw [e, hb] at h; cases h
    | @guard g' hg' ha hr' ih =>
      intro e
      have : g = g' := hu g h1 g' hg' h2 ha (by rw [h3, e])
      exact ih v (by rw [← this]; exact hr) rfl
  intro h; exact this v h rfl

theorem scanLoc_spec (hu : Unique c s) (he : ∀ g ∈ guards c s, IsGuard c g → Plain c (ix (c g))) (g : Nat)
    (hacc : Acc (Needs c s bound) g) : ∀ i, Plain c i → (∀ v, Reads c i v → Reads c (ix (c g)) v) →
    ∃ n b, (∀ m, n ≤ m → scanLoc c s bound m i g = some b) ∧
      (b = true ↔ ∀ v, Reads c i v → Can c s bound v) := by
  induction hacc with
  | intro g _ ihg =>
  intro i hi
  induction hi with
  | @ptr i h _ ih =>
    intro hs
    obtain ⟨n, b, h1, h2⟩ := ih (fun v hv => hs v (.ptr h hv))
    refine ⟨n + 1, b, ?_, ?_⟩
    · intro m hm
      obtain ⟨m, rfl⟩ : ∃ k, m = k + 1 := ⟨m - 1, by omega⟩
      simp only [scanLoc, h, if_true]
      exact h1 m (by omega)
    · rw [h2]
      refine ⟨fun hh v hv => ?_, fun hh v hv => hh v (.ptr h hv)⟩
      cases hv with
      | ptr _ hv => exact hh v hv
      | var h' => rw [h] at h'; cases h'
      | arg h' => rw [h] at h'; cases h'
  | @var i h hv =>
    intro hs
    have hr : Reads c i (ix (c i)) := .var h hv
    have only : ∀ P : Nat → Prop, (∀ v, Reads c i v → P v) ↔ P (ix (c i)) := by
      intro P
      refine ⟨fun hh => hh _ hr, fun hh v hv' => ?_⟩
      cases hv' with
      | ptr h' _ => rw [h] at h'; cases h'
      | var _ _ => exact hh
      | arg _ h' => rw [hv] at h'; cases h'
    rw [show (∀ v, Reads c i v → Can c s bound v) ↔ Can c s bound (ix (c i)) from only _]
    by_cases hb : bound (ix (c i)) = true
    · refine ⟨1, true, ?_, by simp [Can.bound hb]⟩
      intro m hm
      obtain ⟨m, rfl⟩ : ∃ k, m = k + 1 := ⟨m - 1, by omega⟩
      simp [scanLoc, h, hv, hb]
    · simp only [Bool.not_eq_true] at hb
      cases ha : assigner c s (ix (c i)) with
      | none =>
        refine ⟨1, false, ?_, ?_⟩
        · intro m hm
          obtain ⟨m, rfl⟩ : ∃ k, m = k + 1 := ⟨m - 1, by omega⟩
          simp [scanLoc, h, hv, hb, ha]
        · simp only [Bool.false_eq_true, false_iff]
          intro hc
          generalize hx : ix (c i) = x at hc hb ha
          cases hc with
          | bound h => rw [hb] at h; cases h
          | guard hg ha' _ => exact assigner_none ha hg ha' rfl
      | some g' =>
        by_cases hg : g' = g
        · refine ⟨1, false, ?_, ?_⟩
          · intro m hm
            obtain ⟨m, rfl⟩ : ∃ k, m = k + 1 := ⟨m - 1, by omega⟩
            simp [scanLoc, h, hv, hb, ha, hg]
          · simp only [Bool.false_eq_true, false_iff]
            subst hg
            exact not_can_self hu hb ha (hs _ hr)
        · obtain ⟨h1, h2, _⟩ := assigner_some ha
          obtain ⟨n, b, p1, p2⟩ := ihg g' ⟨hg, _, hs _ hr, hb, ha⟩ _ (he g' h1 (Or.inr h2)) (fun v hv => hv)
          refine ⟨n + 1, b, ?_, ?_⟩
          · intro m hm
            obtain ⟨m, rfl⟩ : ∃ k, m = k + 1 := ⟨m - 1, by omega⟩
            simp only [scanLoc, h, hv, hb, ha, if_neg hg]
            simpa using p1 m (by omega)
          · rw [p2, can_unbound hu hb ha]
  | @arg i h hv ho _ ih =>
    intro hs
    obtain ⟨n, b, h1, h2⟩ := andAll_spec (fun m j => scanLoc c s bound m (i + 1 + j) g)
      (fun j => ∀ v, Reads c (i + 1 + j) v → Can c s bound v) (List.range (count (c i)))
      (fun j hj => ih j (List.mem_range.1 hj) (fun v hv' => hs v (.arg h hv (by simp [ho]) (List.mem_range.1 hj) hv')))
    refine ⟨n + 1, b, ?_, ?_⟩
    · intro m hm
      obtain ⟨m, rfl⟩ : ∃ k, m = k + 1 := ⟨m - 1, by omega⟩
      simp only [scanLoc, h, hv, ho, if_true]
      simpa using h1 m (by omega)
    · rw [h2]
      refine ⟨fun hh v hv' => ?_, fun hh j hj v hv' => hh v (.arg h hv (by simp [ho]) (List.mem_range.1 hj) hv')⟩
      cases hv' with
      | ptr h' => rw [h] at h'; cases h'
      | var _ h' => rw [hv] at h'; cases h'
      | arg _ _ _ hj hv' => exact hh _ (List.mem_range.2 hj) v hv'
  | @leaf i h hv ho =>
    intro _
    refine ⟨1, true, ?_, ?_⟩
    · intro m hm
      obtain ⟨m, rfl⟩ : ∃ k, m = k + 1 := ⟨m - 1, by omega⟩
      simp only [Bool.or_eq_false_iff] at ho
      simp [scanLoc, h, hv, ho.1]
    · simp only [true_iff]
      intro v hv'
      cases hv' with
      | ptr h' => rw [h] at h'; cases h'
      | var _ h' => rw [hv] at h'; cases h'
      | arg _ _ h' => rw [ho] at h'; cases h'

/-- What each guard of an evaluable set satisfies. -/
def Fine (c : Code) (s : Nat) (bound : Nat → Bool) (g : Nat) : Prop :=
  (isIPtr (c g) = true → ∀ v, Reads c (ix (c g)) v → Can c s bound v) ∧
  (isAssign (c g) = true → (∀ v, Reads c (ix (c g)) v → Can c s bound v) ∨ bound (target (c g)) = true)

theorem scan_spec (hu : Unique c s) (he : ∀ g ∈ guards c s, IsGuard c g → Plain c (ix (c g)))
    (hacc : ∀ g ∈ guards c s, Acc (Needs c s bound) g) :
    ∃ n b, (∀ m, n ≤ m → scan c s bound m = some b) ∧ (b = true ↔ ∀ g ∈ guards c s, Fine c s bound g) := by
  refine andAll_spec (fun m g => scanGuard c s bound m g) (Fine c s bound) (guards c s) (fun g hg => ?_)
  by_cases hi : isIPtr (c g) = true
  · obtain ⟨n, b, h1, h2⟩ := scanLoc_spec hu he g (hacc g hg) _ (he g hg (Or.inl hi)) (fun v hv => hv)
    refine ⟨n, b, fun m hm => by simp only [scanGuard, hi, if_true]; exact h1 m hm, ?_⟩
    rw [h2]
    simp [Fine, hi, isIPtr_not_assign hi]
  · by_cases ha : isAssign (c g) = true
    · obtain ⟨n, b, h1, h2⟩ := scanLoc_spec hu he g (hacc g hg) _ (he g hg (Or.inr ha)) (fun v hv => hv)
      refine ⟨n, b || bound (target (c g)), fun m hm => by simp [scanGuard, hi, ha, h1 m hm], ?_⟩
      simp [Fine, hi, ha, h2]
    · refine ⟨0, true, fun m _ => by simp [scanGuard, hi, ha], ?_⟩
      simp [Fine, hi, ha]

/-- An order that runs makes every guard fine. -/
theorem fine_of_runs (hu : Unique c s) : ∀ {B : Nat → Prop} {gs : List Nat}, Runs c B gs →
    (∀ g ∈ gs, g ∈ guards c s) → (∀ v, B v → Can c s bound v) → ∀ g ∈ gs, Fine c s bound g := by
  intro B gs h
  induction h with
  | nil => intro _ _ g hg; cases hg
  | other B g gs hn _ ih =>
    intro hm hB x hx
    rcases List.mem_cons.1 hx with rfl | hx
    · exact ⟨fun h => absurd (Or.inl h) hn, fun h => absurd (Or.inr h) hn⟩
    · exact ih (fun y hy => hm y (List.mem_cons_of_mem _ hy)) hB x hx
  | cond B g gs hi hr _ ih =>
    intro hm hB x hx
    rcases List.mem_cons.1 hx with rfl | hx
    · exact ⟨fun _ v hv => hB v (hr v hv), fun h => absurd ((isIPtr_not_assign hi).symm.trans h) Bool.false_ne_true⟩
    · exact ih (fun y hy => hm y (List.mem_cons_of_mem _ hy)) hB x hx
  | assign B g gs ha hr _ ih =>
    intro hm hB x hx
    rcases List.mem_cons.1 hx with rfl | hx
    · exact ⟨fun h => absurd ((isIPtr_not_assign h).symm.trans ha) Bool.false_ne_true, fun _ => Or.inl fun v hv => hB v (hr v hv)⟩
    · refine ih (fun y hy => hm y (List.mem_cons_of_mem _ hy)) (fun v hv => ?_) x hx
      rcases hv with hv | rfl
      · exact hB v hv
      · exact .guard (hm g (by simp)) ha (fun u hu' => hB u (hr u hu'))
  | keep B g gs ha _ hb _ ih =>
    intro hm hB x hx
    rcases List.mem_cons.1 hx with rfl | hx
    · refine ⟨fun h => absurd ((isIPtr_not_assign h).symm.trans ha) Bool.false_ne_true, fun _ => ?_⟩
      have hc := hB _ hb
      generalize hv : target (c x) = v at hc
      cases hc with
      | bound h => exact Or.inr h
      | @guard g' hg' ha' hr' =>
        have : x = g' := hu x (hm x (by simp)) g' hg' ha ha' hv
        rw [this]; exact Or.inl hr'
    · exact ih (fun y hy => hm y (List.mem_cons_of_mem _ hy)) hB x hx

/-- Fine guards can be ordered. -/
theorem runs_of_fine (hf : ∀ g ∈ guards c s, Fine c s bound g) :
    ∀ (n : Nat) (rest : List Nat) (B : Nat → Prop), rest.length = n → (∀ g ∈ rest, g ∈ guards c s) →
      (∀ v, bound v = true → B v) →
      (∀ g ∈ guards c s, isAssign (c g) = true → g ∉ rest → B (target (c g))) →
      ∃ gs, gs.Perm rest ∧ Runs c B gs := by
  intro n
  induction n with
  | zero =>
    intro rest B hl _ _ _
    rw [List.length_eq_zero_iff.1 hl]
    exact ⟨[], List.Perm.refl _, .nil B⟩
  | succ n ih =>
    intro rest B hl hm hB hdone
    -- some guard of `rest` is ready
    have ready : ∃ g ∈ rest, ¬ IsGuard c g ∨ (∀ v, Reads c (ix (c g)) v → B v) ∨
        (isAssign (c g) = true ∧ B (target (c g))) := by
      by_cases hall : ∃ v, Can c s bound v ∧ ¬ B v
      · obtain ⟨v, hv, hnB⟩ := hall
        induction hv with
        | bound h => exact absurd (hB _ h) hnB
        | @guard g hg ha _ ihr =>
          have hgr : g ∈ rest := by
            by_contra h; exact hnB (hdone g hg ha h)
          by_cases hR : ∀ v, Reads c (ix (c g)) v → B v
          · exact ⟨g, hgr, Or.inr (Or.inl hR)⟩
          · obtain ⟨u, hu, hnu⟩ : ∃ u, Reads c (ix (c g)) u ∧ ¬ B u := by
              by_contra h
              exact hR fun v hv => by by_contra h'; exact h ⟨v, hv, h'⟩
            exact ihr u hu hnu
      · have hcan : ∀ v, Can c s bound v → B v := fun v hv => by
          by_contra h; exact hall ⟨v, hv, h⟩
        obtain ⟨g, hg⟩ : ∃ g, g ∈ rest := List.exists_mem_of_length_pos (by omega)
        refine ⟨g, hg, ?_⟩
        by_cases h1 : IsGuard c g
        · rcases h1 with h1 | h1
          · exact Or.inr (Or.inl fun v hv => hcan v ((hf g (hm g hg)).1 h1 v hv))
          · rcases (hf g (hm g hg)).2 h1 with h | h
            · exact Or.inr (Or.inl fun v hv => hcan v (h v hv))
            · exact Or.inr (Or.inr ⟨h1, hB _ h⟩)
        · exact Or.inl h1
    obtain ⟨g, hg, hr⟩ := ready
    have hp : (g :: rest.erase g).Perm rest := (List.perm_cons_erase hg).symm
    have hl' : (rest.erase g).length = n := by
      rw [List.length_erase_of_mem hg]; omega
    have hm' : ∀ x ∈ rest.erase g, x ∈ guards c s := fun x hx => hm x (List.mem_of_mem_erase hx)
    have hd' : ∀ (B' : Nat → Prop), (∀ v, B v → B' v) → (isAssign (c g) = true → B' (target (c g))) →
        ∀ x ∈ guards c s, isAssign (c x) = true → x ∉ rest.erase g → B' (target (c x)) := by
      intro B' h1 h2 x hx ha hne
      by_cases hxg : x = g
      · subst hxg; exact h2 ha
      · refine h1 _ (hdone x hx ha fun hxr => hne ?_)
        exact (List.mem_erase_of_ne hxg).2 hxr
    by_cases hig : IsGuard c g
    · rcases hig with hi | ha
      · have hR : ∀ v, Reads c (ix (c g)) v → B v := by
          rcases hr with hr | hr | hr
          · exact absurd (Or.inl hi) hr
          · exact hr
          · rw [isIPtr_not_assign hi] at hr; cases hr.1
        obtain ⟨gs, h1, h2⟩ := ih (rest.erase g) B hl' hm' hB
          (hd' B (fun _ h => h) (fun h => by rw [isIPtr_not_assign hi] at h; cases h))
        exact ⟨g :: gs, (List.Perm.cons g h1).trans hp, .cond B g gs hi hR h2⟩
      · by_cases hR : ∀ v, Reads c (ix (c g)) v → B v
        · obtain ⟨gs, h1, h2⟩ := ih (rest.erase g) (fun v => B v ∨ v = target (c g)) hl' hm'
            (fun v hv => Or.inl (hB v hv)) (hd' (fun v => B v ∨ v = target (c g)) (fun _ h => Or.inl h) (fun _ => Or.inr rfl))
          exact ⟨g :: gs, (List.Perm.cons g h1).trans hp, .assign B g gs ha hR h2⟩
        · have hb : B (target (c g)) := by
            rcases hr with hr | hr | hr
            · exact absurd (Or.inr ha) hr
            · exact absurd hr hR
            · exact hr.2
          obtain ⟨gs, h1, h2⟩ := ih (rest.erase g) B hl' hm' hB (hd' B (fun _ h => h) (fun _ => hb))
          exact ⟨g :: gs, (List.Perm.cons g h1).trans hp, .keep B g gs ha hR hb h2⟩
    · obtain ⟨gs, h1, h2⟩ := ih (rest.erase g) B hl' hm' hB
        (hd' B (fun _ h => h) (fun h => absurd (Or.inr h) hig))
      exact ⟨g :: gs, (List.Perm.cons g h1).trans hp, .other B g gs hig h2⟩
end

theorem andAll_true {f : Nat → Option Bool} : ∀ {l : List Nat}, andAll f l = some true →
    ∀ j ∈ l, f j = some true
  | [], _ => fun _ h => by cases h
  | j :: js, h => by
    rw [andAll] at h
    cases hj : f j with
    | none => rw [hj] at h; cases h
    | some b =>
      rw [hj] at h
      cases b with
      | false => cases h
      | true =>
        intro x hx
        rcases List.mem_cons.1 hx with rfl | hx
        · exact hj
        · exact andAll_true h x hx

theorem scanLoc_true {c : Code} {s : Nat} {bound : Nat → Bool}
    (he : ∀ g ∈ guards c s, IsGuard c g → Plain c (ix (c g))) : ∀ fuel i g, Plain c i →
    scanLoc c s bound fuel i g = some true → ∀ v, Reads c i v → Can c s bound v
  | 0, _, _, _, h => by cases h
  | fuel + 1, i, g, hi, h => by
    intro v hr
    simp only [scanLoc] at h
    cases hr with
    | ptr hp hr =>
      rw [if_pos hp] at h
      have : Plain c (ix (c i)) := by
        cases hi with
        | ptr _ h => exact h
        | var h' => rw [hp] at h'; cases h'
        | arg h' => rw [hp] at h'; cases h'
        | leaf h' => rw [hp] at h'; cases h'
      exact scanLoc_true he fuel _ g this h v hr
    | var hp hv =>
      rw [if_neg (by simp [hp]), if_pos hv] at h
      by_cases hb : bound (ix (c i)) = true
      · exact .bound hb
      · rw [if_neg hb] at h
        cases ha : assigner c s (ix (c i)) with
        | none => rw [ha] at h; cases h
        | some g' =>
          rw [ha] at h
          by_cases hg : g' = g
          · simp [hg] at h
          · simp only [if_neg hg] at h
            obtain ⟨k1, k2, k3⟩ := assigner_some ha
            rw [← k3]
            exact .guard k1 k2 (scanLoc_true he fuel _ g' (he g' k1 (Or.inr k2)) h)
    | @arg _ j _ hp hv ho hj hr =>
      cases hi with
      | ptr h' => rw [hp] at h'; cases h'
      | var _ h' => rw [hv] at h'; cases h'
      | leaf _ _ h' => rw [ho] at h'; cases h'
      | arg _ _ hop hall =>
        rw [if_neg (by simp [hp]), if_neg (by simp [hv]), if_pos hop] at h
        exact scanLoc_true he fuel _ g (hall j hj) (andAll_true h j (List.mem_range.2 hj)) v hr

/-- A yes is right: whatever the dependencies between the guards, built from operators, if the scan
answers yes then the guards can be evaluated in some order. -/
theorem C42_yes_sound (c : Code) (s : Nat) (bound : Nat → Bool) (fuel : Nat)
    (he : ∀ g ∈ guards c s, IsGuard c g → Plain c (ix (c g))) (h : scan c s bound fuel = some true) :
    OrderExists c s bound := by
  refine runs_of_fine (fun g hg => ?_) _ (guards c s) _ rfl (fun _ h => h) (fun _ h => h)
    (fun g hg _ hn => absurd hg hn)
  have hs := andAll_true h g hg
  simp only [scanGuard] at hs
  refine ⟨fun hi v hv => ?_, fun ha => ?_⟩
  · rw [if_pos hi] at hs
    exact scanLoc_true he fuel _ g (he g hg (Or.inl hi)) hs v hv
  · have hi : ¬ isIPtr (c g) = true := fun h => absurd ((isIPtr_not_assign h).symm.trans ha) Bool.false_ne_true
    rw [if_neg hi, if_pos ha] at hs
    cases hl : scanLoc c s bound fuel (ix (c g)) g with
    | none => rw [hl] at hs; cases hs
    | some b =>
      rw [hl] at hs
      cases b with
      | true => exact Or.inl (scanLoc_true he fuel _ g (he g hg (Or.inr ha)) hl)
      | false => exact Or.inr (by simpa using hs)

/-- C42, the part that holds (missing: guards that depend on each other in a circle, and variables
assigned by several guards, and sets in expressions): when the guards are built from operators, each variable is assigned at most once and no two or more guards
depend on each other, the scan returns and says yes exactly when an evaluation order exists. A guard
may depend on itself. -/
theorem C42_scan_partial (c : Code) (s : Nat) (bound : Nat → Bool)
    (he : ∀ g ∈ guards c s, IsGuard c g → Plain c (ix (c g))) (hu : Unique c s)
    (hacc : ∀ g ∈ guards c s, Acc (Needs c s bound) g) :
    ∃ b, Answers c s bound b ∧ (b = true ↔ OrderExists c s bound) := by
  obtain ⟨n, b, h1, h2⟩ := scan_spec hu he hacc
  refine ⟨b, ⟨n, h1⟩, h2.trans ⟨fun hf => ?_, fun ⟨gs, hp, hr⟩ g hg => ?_⟩⟩
  · exact runs_of_fine hf _ (guards c s) _ rfl (fun _ h => h) (fun _ h => h)
      (fun g hg _ hn => absurd hg hn)
  · exact fine_of_runs hu hr (fun x hx => hp.mem_iff.1 hx) (fun v hv => .bound hv) g (hp.mem_iff.2 hg)

/-! ## What fails -/

def ofList (l : List Word) : Code := fun i => l.getD i 0

/-- `x := y`, `y := x`. -/
def circle : Code := ofList [Atom.set 2, assignmentPointer 1 3, assignmentPointer 2 4, vlPointer 2, vlPointer 1]
/-- `x := z`, `x := 0` (`z` has no value). -/
def twice : Code := ofList [Atom.set 2, assignmentPointer 1 3, assignmentPointer 1 4, vlPointer 5, 0]
/-- `x := [z]` (`z` has no value). -/
def inSet : Code := ofList [Atom.set 1, assignmentPointer 1 2, Atom.set 1, vlPointer 7]
/-- `x := y`, `y := 0`. -/
def backwards : Code := ofList [Atom.set 2, assignmentPointer 1 3, assignmentPointer 2 4, vlPointer 2, 0]

def nothing : Nat → Bool := fun _ => false

theorem circle_scanLoc : ∀ fuel, scanLoc circle 0 nothing fuel 3 1 = none ∧
    scanLoc circle 0 nothing fuel 4 2 = none
  | 0 => ⟨rfl, rfl⟩
  | fuel + 1 => by
    obtain ⟨h1, h2⟩ := circle_scanLoc fuel
    have a1 : assigner circle 0 1 = some 1 := by decide
    have a2 : assigner circle 0 2 = some 2 := by decide
    have e3 : ix (circle 3) = 2 := by decide
    have e4 : ix (circle 4) = 1 := by decide
    have e1 : ix (circle 1) = 3 := by decide
    have e2 : ix (circle 2) = 4 := by decide
    constructor
    · simp only [scanLoc, show (isIPtr (circle 3) || isAssign (circle 3)) = false by decide,
        show isVar (circle 3) = true by decide, e3, nothing, a2, e2]
      simpa using h2
    · simp only [scanLoc, show (isIPtr (circle 4) || isAssign (circle 4)) = false by decide,
        show isVar (circle 4) = true by decide, e4, nothing, a1, e1]
      simpa using h1

theorem circle_scan (fuel : Nat) : scan circle 0 nothing fuel = none := by
  have hg : guards circle 0 = [1, 2] := by decide
  simp only [scan, hg, andAll, scanGuard, show isIPtr (circle 1) = false by decide,
    show isAssign (circle 1) = true by decide, show ix (circle 1) = 3 by decide, (circle_scanLoc fuel).1]
  simp

theorem finite_leaf {c : Code} {K : Word → Bool} {i : Nat}
    (h : ((isIPtr (c i) || isAssign (c i)) || isVar (c i) || (isOp (c i) || isSet (c i))) = false) :
    Ends c K i := by
  simp only [Bool.or_eq_false_iff] at h
  exact .leaf (by simp [h]) h.1.2 (by simp [h])
theorem finite_var {c : Code} {K : Word → Bool} {i : Nat}
    (h : (!(isIPtr (c i) || isAssign (c i)) && isVar (c i)) = true) : Ends c K i := by
  simp only [Bool.and_eq_true, Bool.not_eq_true'] at h
  exact .var h.1 h.2

theorem reads_var {c : Code} {i v : Nat} (h : (!(isIPtr (c i) || isAssign (c i)) && isVar (c i)) = true)
    (hr : Reads c i v) : v = ix (c i) := by
  simp only [Bool.and_eq_true, Bool.not_eq_true'] at h
  cases hr with
  | ptr h' => rw [h.1] at h'; cases h'
  | var _ _ => rfl
  | arg _ h' => rw [h.2] at h'; cases h'

theorem reads_leaf {c : Code} {i v : Nat}
    (h : ((isIPtr (c i) || isAssign (c i)) || isVar (c i) || (isOp (c i) || isSet (c i))) = false) :
    ¬ Reads c i v := by
  simp only [Bool.or_eq_false_iff] at h
  intro hr
  cases hr with
  | ptr h' => simp [h] at h'
  | var _ h' => simp [h] at h'
  | arg _ _ h' => simp [h] at h'

theorem circle_finite : ∀ g ∈ guards circle 0, IsGuard circle g → Finite circle (ix (circle g)) := by
  rw [show guards circle 0 = [1, 2] by decide]
  intro g hg _
  simp only [List.mem_cons, List.not_mem_nil, or_false] at hg
  rcases hg with rfl | rfl
  · exact finite_var (by decide)
  · exact finite_var (by decide)

/-- C42 fails in three ways. Two guards that depend on each other: the scan never returns (the call
overflows the stack). A variable assigned twice: the scan only considers the first assignment and says
no although the guards can be evaluated. A set with an unbound variable: the scan says yes, but
evaluation needs the members of the set (hlp_context.cpp:176-194) and no order exists. -/
theorem C42_scan_violated : ¬ C42_full ∧
    (∀ fuel, scan circle 0 nothing fuel = none) ∧
    (Answers twice 0 nothing false ∧ OrderExists twice 0 nothing) ∧
    (Answers inSet 0 nothing true ∧ ¬ OrderExists inSet 0 nothing) := by
  refine ⟨fun h => ?_, circle_scan, ⟨⟨2, fun fuel hf => ?_⟩, ?_⟩, ⟨2, fun fuel hf => ?_⟩, ?_⟩
  · obtain ⟨b, ⟨n, hn⟩, _⟩ := h circle 0 nothing circle_finite
    have := hn n (Nat.le_refl _)
    rw [circle_scan] at this; cases this
  · obtain ⟨fuel, rfl⟩ : ∃ k, fuel = k + 1 := ⟨fuel - 1, by omega⟩
    have hl : scanLoc twice 0 nothing (fuel + 1) 3 1 = some false := by
      simp only [scanLoc, show (isIPtr (twice 3) || isAssign (twice 3)) = false by decide,
        show isVar (twice 3) = true by decide, show ix (twice 3) = 5 by decide, nothing,
        show assigner twice 0 5 = none by decide]
      simp
    simp only [scan, show guards twice 0 = [1, 2] by decide, andAll, scanGuard,
      show isIPtr (twice 1) = false by decide, show isAssign (twice 1) = true by decide,
      show ix (twice 1) = 3 by decide, hl]
    simp [nothing]
  · refine ⟨[2, 1], by rw [show guards twice 0 = [1, 2] by decide]; exact List.Perm.swap _ _ _, ?_⟩
    refine .assign _ _ _ (by decide) (fun v hv => absurd hv (reads_leaf (by decide))) ?_
    refine .keep _ _ _ (by decide) (fun h => ?_) (Or.inr (by decide)) (.nil _)
    have h3 : Reads twice 3 (ix (twice 3)) := .var (by decide) (by decide)
    have := h (ix (twice 3)) (by rw [show ix (twice 1) = 3 by decide]; exact h3)
    rcases this with h | h
    · cases h
    · revert h; decide
  · obtain ⟨fuel, rfl⟩ : ∃ k, fuel = k + 1 := ⟨fuel - 1, by omega⟩
    have hl : scanLoc inSet 0 nothing (fuel + 1) 2 1 = some true := by
      simp only [scanLoc, show (isIPtr (inSet 2) || isAssign (inSet 2)) = false by decide,
        show isVar (inSet 2) = false by decide, show isOp (inSet 2) = false by decide]
      simp
    simp only [scan, show guards inSet 0 = [1] by decide, andAll, scanGuard,
      show isIPtr (inSet 1) = false by decide, show isAssign (inSet 1) = true by decide,
      show ix (inSet 1) = 2 by decide, hl]
    simp
  · rintro ⟨gs, hp, hr⟩
    rw [show guards inSet 0 = [1] by decide] at hp
    rw [List.perm_singleton.1 hp] at hr
    have h2 : Reads inSet (ix (inSet 1)) 7 := by
      rw [show ix (inSet 1) = 2 by decide]
      refine .arg (j := 0) (by decide) (by decide) (by decide) (by decide) ?_
      have h3 : Reads inSet 3 (ix (inSet 3)) := .var (by decide) (by decide)
      rw [show ix (inSet 3) = 7 by decide] at h3
      exact h3
    cases hr with
    | other _ _ _ h => exact h (Or.inr (by decide))
    | cond _ _ _ h => revert h; decide
    | assign _ _ _ _ h _ => cases h _ h2
    | keep _ _ _ _ _ h => cases h

/-- The evaluator tries the guards in the order in which they are written, so the scan can answer yes
(an order exists) for guards that the evaluation then fails on. -/
theorem C42_written_order : Answers backwards 0 nothing true ∧ OrderExists backwards 0 nothing ∧
    ¬ Runs backwards (fun v => nothing v = true) (guards backwards 0) := by
  refine ⟨⟨3, fun fuel hf => ?_⟩, ?_, ?_⟩
  · obtain ⟨fuel, rfl⟩ : ∃ k, fuel = k + 2 := ⟨fuel - 2, by omega⟩
    have h4 : ∀ f p, scanLoc backwards 0 nothing (f + 1) 4 p = some true := by
      intro f p
      simp only [scanLoc, show (isIPtr (backwards 4) || isAssign (backwards 4)) = false by decide,
        show isVar (backwards 4) = false by decide, show isOp (backwards 4) = false by decide]
      simp
    have hl : scanLoc backwards 0 nothing (fuel + 2) 3 1 = some true := by
      rw [scanLoc]
      simp only [show (isIPtr (backwards 3) || isAssign (backwards 3)) = false by decide,
        show isVar (backwards 3) = true by decide, show ix (backwards 3) = 2 by decide, nothing,
        show assigner backwards 0 2 = some 2 by decide, show ix (backwards 2) = 4 by decide]
      simpa using h4 fuel 2
    simp only [scan, show guards backwards 0 = [1, 2] by decide, andAll, scanGuard,
      show isIPtr (backwards 1) = false by decide, show isAssign (backwards 1) = true by decide,
      show ix (backwards 1) = 3 by decide, hl, show isIPtr (backwards 2) = false by decide,
      show isAssign (backwards 2) = true by decide, show ix (backwards 2) = 4 by decide, h4 (fuel + 1) 2]
    simp
  · refine ⟨[2, 1], by rw [show guards backwards 0 = [1, 2] by decide]; exact List.Perm.swap _ _ _, ?_⟩
    refine .assign _ _ _ (by decide) (fun v hv => absurd hv (reads_leaf (by decide))) ?_
    refine .assign _ _ _ (by decide) (fun v hv => Or.inr ?_) (.nil _)
    have := reads_var (by decide) hv
    rw [this]; decide
  · rw [show guards backwards 0 = [1, 2] by decide]
    intro hr
    have h3 : Reads backwards (ix (backwards 1)) 2 := by
      have h3 : Reads backwards 3 (ix (backwards 3)) := .var (by decide) (by decide)
      rw [show ix (backwards 3) = 2 by decide] at h3
      exact h3
    cases hr with
    | other _ _ _ h => exact h (Or.inr (by decide))
    | cond _ _ _ h => revert h; decide
    | assign _ _ _ _ h _ => cases h _ h3
    | keep _ _ _ _ _ h => cases h

/-- The hypotheses of the part that holds are met: guards in an unfavourable order. -/
theorem C42_nonvacuous : (∀ g ∈ guards backwards 0, IsGuard backwards g → Plain backwards (ix (backwards g))) ∧
    Unique backwards 0 ∧ (∀ g ∈ guards backwards 0, Acc (Needs backwards 0 nothing) g) ∧
    OrderExists backwards 0 nothing := by
  have hg : guards backwards 0 = [1, 2] := by decide
  have acc2 : Acc (Needs backwards 0 nothing) 2 := by
    refine ⟨_, fun g' hn => ?_⟩
    obtain ⟨_, v, hv, _⟩ := hn
    exact absurd hv (reads_leaf (by decide))
  refine ⟨?_, ?_, ?_, C42_written_order.2.1⟩
  · rw [hg]
    intro g hg _
    simp only [List.mem_cons, List.not_mem_nil, or_false] at hg
    rcases hg with rfl | rfl
    · exact finite_var (by decide)
    · exact finite_leaf (by decide)
  · unfold Unique; rw [hg]; decide
  · rw [hg]
    intro g hg
    simp only [List.mem_cons, List.not_mem_nil, or_false] at hg
    rcases hg with rfl | rfl
    · refine ⟨_, fun g' hn => ?_⟩
      obtain ⟨_, v, hv, _, ha⟩ := hn
      rw [reads_var (by decide) hv] at ha
      have : g' = 2 := by
        have h : assigner backwards 0 (ix (backwards (ix (backwards 1)))) = some 2 := by decide
        rw [h] at ha; exact (Option.some.inj ha).symm
      rw [this]; exact acc2
    · exact acc2

end Verif.GuardScan
