import Verif.Drives.Spec
import Verif.Monitors.Props
import Mathlib.Data.List.Induction
/-!
# C127 to C129
-/
namespace Verif.Drives
open Verif.F32 (Arith)
open Verif.Abduce (Target Sim Bound Known)
open Verif.Evidence (MatchResult)

theorem says_unique {b : Bound} {q : Rat} {t : Target} (h : Says b q t) : t = bound b q := by
  obtain ⟨h1, h2, h3, h4, h5⟩ := h
  cases t
  simp_all [bound]

theorem driveGroup_iff {c : Top} {g : Nat} : c.groups.getLast? = some g ↔ DriveGroup c g := by
  unfold DriveGroup
  rw [List.getLast?_eq_some_iff]

/-- C127 in part, for models that have an output group. Missing: models that have none; the life of the goal; the
notifications in the group of the drives. See `C127_drives_violated`. -/
theorem C127_drives_partial : ∀ A c now K lhs pat d m, c.groups ≠ [] →
    ∃ es, reduceDrive A c now K lhs pat d m = some es ∧ C127Body A c now K lhs pat d m es ∧
      (∀ g t s res, .goal g t s res ∈ es → res = Lifetime.goalRes c.ref c.upr now 0) ∧
      ∀ g, DriveGroup c g → g ∉ c.groups.dropLast → g ≠ c.host → ∀ e ∈ es, g ∈ e.groups →
        (∃ x ok, e = .outcome g x ok) ∨ ∃ i x t s, e = .rdx g i x t s := by
  intro A c now K lhs pat d m hg
  obtain ⟨g, hl⟩ : ∃ g, c.groups.getLast? = some g := by
    cases h : c.groups.getLast? with
    | none => exact absurd (List.getLast?_eq_none_iff.mp h) hg
    | some g => exact ⟨g, rfl⟩
  unfold reduceDrive
  dsimp only
  by_cases hc : A.mul c.rate d.cfd ≤ c.thr
  · rw [if_pos hc]
    refine ⟨_, rfl, ⟨fun _ => rfl, ?_, ?_⟩, ?_, ?_⟩
    · intro b i t e ok h; exact absurd hc (not_le.mpr h)
    · intro b i t t' h; exact absurd hc (not_le.mpr h)
    · simp
    · simp
  · rw [if_neg hc]
    have hm : ∀ (r : Option (List Eff)), (m ≠ .no → r = abduce A c now K lhs pat d.id (A.mul c.rate d.cfd)) → (m = .no → r = some []) →
        ∃ es, r = some es ∧ C127Body A c now K lhs pat d m es ∧
          (∀ g t s res, .goal g t s res ∈ es → res = Lifetime.goalRes c.ref c.upr now 0) ∧
          ∀ g, DriveGroup c g → g ∉ c.groups.dropLast → g ≠ c.host → ∀ e ∈ es, g ∈ e.groups →
            (∃ x ok, e = .outcome g x ok) ∨ ∃ i x t s, e = .rdx g i x t s := by
      intro r h1 h2
      by_cases hm : m = .no
      · refine ⟨[], h2 hm, ⟨fun _ => rfl, ?_, ?_⟩, by simp, by simp⟩
        · intro b i t e ok _ h; exact absurd hm h
        · intro b i t t' _ h; exact absurd hm h
      · rw [h1 hm]
        unfold abduce
        cases lhs with
        | none =>
          refine ⟨[], rfl, ⟨fun _ => rfl, ?_, ?_⟩, by simp, by simp⟩
          · intro b i t e ok _ _ h; cases h
          · intro b i t t' _ _ h; cases h
        | some x =>
          obtain ⟨b, i⟩ := x
          dsimp only
          have hidle : ∀ es : List Eff, (A.mul c.rate d.cfd ≤ c.thr ∨ m = .no ∨ (some (b, i) : Option (Bound × Nat)) = none) → es = [] := by
            rintro es (h | h | h)
            · exact absurd h hc
            · exact absurd h hm
            · cases h
          cases hs : K.seen (bound b pat) with
          | some x =>
            obtain ⟨e, ok⟩ := x
            dsimp only
            rw [show driveOutcome c d.id ok = some [.outcome g d.id ok] by simp [driveOutcome, hl]]
            refine ⟨_, rfl, ⟨hidle _, ?_, ?_⟩, by simp, ?_⟩
            · intro b' i' t e' ok' _ _ h1 h2 h3
              simp only [Option.some.injEq, Prod.mk.injEq] at h1
              obtain ⟨rfl, rfl⟩ := h1
              rw [says_unique h2, hs] at h3
              simp only [Option.some.injEq, Prod.mk.injEq] at h3
              obtain ⟨rfl, rfl⟩ := h3
              exact ⟨g, driveGroup_iff.mp hl, rfl⟩
            · intro b' i' t t' _ _ h1 h2 h3
              simp only [Option.some.injEq, Prod.mk.injEq] at h1
              obtain ⟨rfl, rfl⟩ := h1
              rw [says_unique h2, hs] at h3
              cases h3
            · intro g' _ _ _ e' he' hg'
              simp only [List.mem_singleton] at he'
              subst he'
              simp only [Eff.groups, List.mem_singleton] at hg'
              subst hg'
              exact Or.inl ⟨_, _, rfl⟩
          | none =>
            dsimp only
            generalize hev : foreseen K (bound b (A.store (A.mul c.rate d.cfd))) = ev
            refine ⟨_, rfl, ⟨hidle _, ?_, ?_⟩, ?_, ?_⟩
            · intro b' i' t e' ok' _ _ h1 h2 h3
              simp only [Option.some.injEq, Prod.mk.injEq] at h1
              obtain ⟨rfl, rfl⟩ := h1
              rw [says_unique h2, hs] at h3
              cases h3
            · intro b' i' t t' _ _ h1 h2 _ h4
              simp only [Option.some.injEq, Prod.mk.injEq] at h1
              obtain ⟨rfl, rfl⟩ := h1
              have ht := says_unique h4
              subst ht
              refine ⟨{ mode := .root, thz := c.thz now b.before, sup := d.id, root := c.id }, rfl, rfl, rfl, rfl, ?_, ?_, ?_⟩
              · intro g' x ok
                unfold pursue injectGoal
                split <;> simp
              · intro e he
                unfold foreseen at hev
                rw [he] at hev
                dsimp only at hev
                subst hev
                rfl
              · intro he
                have : ev = none := by
                  rw [← hev]
                  unfold foreseen
                  cases hf : K.foreseen (bound b (A.store (A.mul c.rate d.cfd))) with
                  | none => rfl
                  | some y =>
                    obtain ⟨e, ok⟩ := y
                    cases ok
                    · rfl
                    · exact absurd hf (he e)
                subst this
                unfold pursue injectGoal
                simp only [Option.isNone_none, if_true]
                refine ⟨by simp [bound], ⟨_, by simp [bound]; rfl⟩, ?_, ?_⟩
                · have : (c.groups.map (fun g => Eff.rdx g i d.id (bound b (A.store (A.mul c.rate d.cfd)))
                      ({ mode := .root, thz := c.thz now (bound b (A.store (A.mul c.rate d.cfd))).before, sup := d.id, root := c.id } : Sim))).filter
                      (fun e => match e with | .goal .. => true | _ => false) = [] := by
                    rw [List.filter_eq_nil_iff]
                    intro e he
                    obtain ⟨x, _, rfl⟩ := List.mem_map.mp he
                    simp
                  simp only [List.cons_append, List.filter_cons, List.filter_append, this]
                  simp
                · intro g' hg'
                  simp only [bound, List.cons_append, List.mem_cons, List.mem_append, List.mem_map]
                  exact Or.inr (Or.inl ⟨g', List.dropLast_subset _ hg', rfl⟩)
            · intro g' t s res hmem
              unfold pursue injectGoal at hmem
              dsimp only at hmem
              by_cases hn : ev.isNone = true
              · rw [if_pos hn] at hmem
                simp only [List.cons_append, List.mem_cons, List.mem_append, List.mem_map, Eff.goal.injEq, reduceCtorEq,
                  and_false, exists_false, List.not_mem_nil, or_false] at hmem
                rw [hmem.2.2.2, sub_self]
              · rw [if_neg hn] at hmem
                simp at hmem
            · intro g' _ _ hh e he hge
              unfold pursue injectGoal at he
              dsimp only at he
              by_cases hn : ev.isNone = true
              · rw [if_pos hn] at he
                simp only [List.cons_append, List.mem_cons, List.mem_append, List.mem_map, List.not_mem_nil, or_false] at he
                rcases he with rfl | ⟨x, _, rfl⟩ | rfl
                · simp only [Eff.groups, List.mem_singleton] at hge
                  exact absurd hge hh
                · simp only [Eff.groups, List.mem_singleton] at hge
                  subst hge
                  exact Or.inr ⟨_, _, _, _, rfl⟩
                · simp [Eff.groups] at hge
              · rw [if_neg hn] at he
                simp only [List.nil_append, List.mem_singleton] at he
                subst he
                simp [Eff.groups] at hge
    apply hm
    · intro hn; cases m <;> simp_all
    · intro hn; subst hn; rfl

namespace Ex
def top : Top := { id := 1, host := 50, groups := [51, 52], upr := 1, thz := fun now deadline => (deadline - now) / 2 }
def drive : Drive := ⟨7, 1⟩
def lhs : Option (Bound × Nat) := some (⟨3, true, 1000000, 2000000⟩, 4)
def nothing : Known := ⟨fun _ => none, fun _ => none⟩
def known : Known := ⟨fun _ => some (9, true), fun _ => none⟩
def predicted : Known := ⟨fun _ => none, fun _ => some (9, true)⟩
def aim : Target := ⟨.thing 3, true, 1000000, 2000000, 1⟩
def sim : Sim := { mode := .root, thz := 1000000, sup := 7, root := 1 }
def shown : List Eff := [.goal 50 aim sim (Lifetime.goalRes 0 1 0 0), .rdx 51 4 7 aim sim, .rdx 52 4 7 aim sim,
  .watch aim sim 2000000 1000000 none]
end Ex
open Ex

/-- C127 fails as stated: without output groups the model reads beyond its code; the group of the drives is notified of
the goal; the goal lives for one period whatever its end. -/
theorem C127_drives_violated : ¬ C127_full ∧
    reduceDrive F32.exact { top with groups := [] } 0 known lhs 1 drive .rhs = none ∧
    (∃ es, reduceDrive F32.exact top 0 nothing lhs 1 drive .rhs = some es ∧ (∃ i x t s, .rdx 52 i x t s ∈ es)) ∧
    (∃ es t s, reduceDrive F32.exact { top with upr := 1, ref := 0 } 0 nothing lhs 1 drive .rhs = some es ∧
      .goal 50 t s (Lifetime.goalRes 0 1 0 0) ∈ es ∧ Lifetime.goalRes 0 1 0 0 ≠ Lifetime.goalRes 0 1 0 (t.before - 0)) := by
  have h1 : reduceDrive F32.exact { top with groups := [] } 0 known lhs 1 drive .rhs = none := by decide +kernel
  refine ⟨?_, h1, ?_, ?_⟩
  · intro hf
    obtain ⟨es, he, _⟩ := hf F32.exact { top with groups := [] } 0 known lhs 1 drive .rhs
    rw [h1] at he
    cases he
  · exact ⟨shown, by decide +kernel, 4, 7, aim, sim, by decide +kernel⟩
  · exact ⟨shown, aim, sim, by decide +kernel, by decide +kernel, by decide +kernel⟩

/-- C127 is not vacuous: a drive is pursued, is known to be met, or is predicted to be. -/
theorem C127_nonvacuous :
    (reduceDrive F32.exact top 0 nothing lhs 1 drive .rhs).map List.length = some 4 ∧
    reduceDrive F32.exact top 0 known lhs 1 drive .inst = some [.outcome 52 7 true] ∧
    (reduceDrive F32.exact top 0 predicted lhs 1 drive .rhs).map List.length = some 1 ∧
    reduceDrive F32.exact { top with thr := 1 } 0 nothing lhs 1 drive .rhs = some [] := by
  refine ⟨?_, ?_, ?_, ?_⟩ <;> decide +kernel

/-! ## C128 -/

/-- C128 for models with an output group. -/
theorem C128_told_partial : ∀ c now goal drive success evidence, c.groups ≠ [] →
    ∃ es, goalOutcome c now goal drive success evidence = some es ∧ C128At c goal drive success evidence es := by
  intro c now goal drive success evidence hg
  obtain ⟨g, hl⟩ : ∃ g, c.groups.getLast? = some g := by
    cases h : c.groups.getLast? with
    | none => exact absurd (List.getLast?_eq_none_iff.mp h) hg
    | some g => exact ⟨g, rfl⟩
  have hd : driveOutcome c drive success = some [.outcome g drive success] := by simp [driveOutcome, hl]
  unfold goalOutcome
  rw [hd]
  dsimp only
  have hu : ∀ g', DriveGroup c g' ↔ g' = g := by
    intro g'
    rw [← driveGroup_iff, hl]
    simp [eq_comm]
  refine ⟨_, rfl, ?_, ?_, ?_, ?_⟩
  · intro g' x ok
    rw [hu, List.mem_append, List.mem_flatMap]
    constructor
    · rintro (⟨y, _, h⟩ | h)
      · split at h <;> simp at h
      · simp only [List.mem_singleton, Eff.outcome.injEq] at h
        exact h
    · rintro ⟨rfl, rfl, rfl⟩
      exact Or.inr (by simp)
  · intro g' x ok ev
    constructor
    · rintro ⟨res, h⟩
      rw [List.mem_append, List.mem_flatMap] at h
      rcases h with ⟨y, hy, h⟩ | h
      · have : Eff.result g' x ok ev res = .result y goal success evidence (Lifetime.goalRes c.ref c.upr now 0) := by
          split at h <;> simpa using h
        simp only [Eff.result.injEq] at this
        obtain ⟨rfl, rfl, rfl, rfl, _⟩ := this
        exact ⟨hy, rfl, rfl, rfl⟩
      · simp at h
    · rintro ⟨hy, rfl, rfl, rfl⟩
      refine ⟨Lifetime.goalRes c.ref c.upr now 0, ?_⟩
      rw [List.mem_append, List.mem_flatMap]
      exact Or.inl ⟨g', hy, List.mem_cons_self⟩
  · intro g' x
    rw [List.mem_append, List.mem_flatMap]
    constructor
    · rintro (⟨y, hy, h⟩ | h)
      · split at h
        · rename_i hc
          simp only [List.mem_cons, reduceCtorEq, Eff.absent.injEq, List.not_mem_nil, or_false, false_or] at h
          obtain ⟨rfl, rfl⟩ := h
          exact ⟨hy, rfl, hc⟩
        · simp at h
      · simp at h
    · rintro ⟨hy, rfl, hc⟩
      refine Or.inl ⟨g', hy, ?_⟩
      rw [if_pos hc]
      simp
  · intro e he
    rw [List.mem_append, List.mem_flatMap] at he
    rcases he with ⟨y, _, h⟩ | h
    · rcases List.mem_cons.mp h with rfl | h
      · exact Or.inr (Or.inl ⟨_, _, _, _, _, rfl⟩)
      · split at h
        · simp only [List.mem_singleton] at h
          exact Or.inr (Or.inr ⟨_, _, h⟩)
        · simp at h
    · simp only [List.mem_singleton] at h
      exact Or.inl ⟨_, _, _, h⟩

/-- C128 fails as stated: without output groups the model reads beyond its code. -/
theorem C128_told_violated : ¬ C128_full ∧ goalOutcome { top with groups := [] } 0 1 7 true (some 9) = none := by
  have h1 : goalOutcome { top with groups := [] } 0 1 7 true (some 9) = none := by decide +kernel
  refine ⟨?_, h1⟩
  intro hf
  obtain ⟨es, he, _⟩ := hf { top with groups := [] } 0 1 7 true (some 9)
  rw [h1] at he
  cases he

/-- C128 is not vacuous. -/
theorem C128_nonvacuous :
    (goalOutcome top 0 1 7 false none).map (List.map Eff.groups) = some [[51], [51], [52]] ∧
    (goalOutcome top 0 1 7 true (some 9)).map (List.map Eff.groups) = some [[51], [52]] := by
  refine ⟨?_, ?_⟩ <;> decide +kernel

/-! ## C129 -/

theorem run_snoc (es : List Ev) (e : Ev) : run (es ++ [e]) = step (run es) e := by simp [run]

theorem fine_interleave (es : List Ev) : fine (interleave es) = run es := by
  have key : ∀ (es : List Ev) (c : World × (Nat → Bool)), ((interleave es).foldl fineStep c).1 = es.foldl step c.1 := by
    intro es
    induction es with
    | nil => intro c; rfl
    | cons e es ih =>
      intro c
      simp only [interleave, List.flatMap_cons, List.cons_append, List.nil_append, List.foldl_cons] at ih ⊢
      rw [ih]
      simp [fineStep, step]
  exact key es _

theorem step_drive (w : World) (d : Nat) (a : Ans) : step w (.drive d a) = if w.dinv d = true then w else match a with
      | .idle => w
      | .known b => tell w d b
      | .pursue p => { w with hunts := w.hunts ++ [⟨d, p, Monitors.init p⟩] } := rfl

/-- What an event tells. -/
theorem step_told (w : World) (e : Ev) : ((step w e).told = w.told ∧ ∀ d, w.dinv d = true → (step w e).dinv d = true) ∨
    ∃ d b, w.dinv d = false ∧ (step w e).told = (d, b) :: w.told ∧ (∀ x, (step w e).dinv x = (x == d || w.dinv x)) ∧
      (e = .drive d (.known b) ∨ ∃ i h x, e = .mon i x ∧ w.hunts[i]? = some h ∧ h.drive = d ∧ h.s.inv = false ∧
        latest h.s (Monitors.step h.p h.s x) = some b) := by
  cases e with
  | drive d a =>
    rw [step_drive]
    by_cases hd : w.dinv d = true
    · rw [if_pos hd]; exact Or.inl ⟨rfl, fun _ h => h⟩
    · rw [if_neg hd]
      cases a with
      | idle => exact Or.inl ⟨rfl, fun _ h => h⟩
      | pursue p => exact Or.inl ⟨rfl, fun _ h => h⟩
      | known b => exact Or.inr ⟨d, b, by simpa using hd, rfl, fun _ => rfl, Or.inl rfl⟩
  | gone d => exact Or.inl ⟨rfl, fun x h => by simp [step, act, h]⟩
  | mon i x =>
    unfold step
    simp only [act, flag]
    cases hi : w.hunts[i]? with
    | none => exact Or.inl ⟨rfl, fun _ h => h⟩
    | some h =>
      dsimp only
      by_cases hf : (h.view w).inv = true
      · have hl : latest h.s (Monitors.act h.p (h.view w).inv (h.view w) x) = none := by
          have := (Monitors.step_inv h.p (h.view w) x hf).2.1
          unfold latest
          rw [if_pos]
          exact congrArg List.length this
        rw [hl]
        exact Or.inl ⟨rfl, fun _ h => h⟩
      · have hff : (h.view w).inv = false := by simpa using hf
        have h1 : h.s.inv = false ∧ w.dinv h.drive = false := by simpa [Hunt.view] using hff
        have hv : h.view w = h.s := by
          unfold Hunt.view
          rw [h1.1, h1.2]
          cases hs : h.s
          rw [hs] at h1
          simp_all
        rw [hv]
        cases hl : latest h.s (Monitors.act h.p h.s.inv h.s x) with
        | none => exact Or.inl ⟨rfl, fun _ h => h⟩
        | some b =>
          exact Or.inr ⟨h.drive, b, h1.2, rfl, fun _ => rfl, Or.inr ⟨i, h, x, rfl, hi, rfl, h1.1, hl⟩⟩

/-- A drive of which the outcome was told is invalidated, and the outcome was told once. -/
theorem told_once (es : List Ev) (d : Nat) : times (run es) d ≤ 1 ∧ (0 < times (run es) d → (run es).dinv d = true) := by
  induction es using List.reverseRecOn with
  | nil => simp [run, times]
  | append_singleton es e ih =>
    rw [run_snoc]
    rcases step_told (run es) e with ⟨h1, h2⟩ | ⟨d', b, h1, h2, h3, _⟩
    · unfold times at ih ⊢
      rw [h1]
      exact ⟨ih.1, fun h => h2 d (ih.2 h)⟩
    · unfold times at ih ⊢
      rw [h2]
      by_cases hd : d' = d
      · subst hd
        have h0 : ((run es).told.filter (fun x => x.1 == d')).length = 0 := by
          by_contra hne
          have := ih.2 (Nat.pos_of_ne_zero hne)
          rw [h1] at this
          cases this
        simp [h0, h3]
      · have : (d' == d) = false := by simpa using hd
        simp only [List.filter_cons, this, Bool.false_eq_true, if_false]
        refine ⟨ih.1, fun h => ?_⟩
        rw [h3, ih.2 h]
        simp

/-- As long as the drive is valid, a monitor does what monitors do. -/
theorem hunts_run (es : List Ev) : ∀ h ∈ (run es).hunts, (∃ p, Ev.drive h.drive (.pursue p) ∈ es ∧ p = h.p) ∧
    ((run es).dinv h.drive = true ∨ (h.s.outs = [] ∧ ∃ l, h.s = Monitors.run h.p l ∧ ∀ x ∈ l, ∃ i, Ev.mon i x ∈ es)) := by
  induction es using List.reverseRecOn with
  | nil => simp [run]
  | append_singleton es e ih =>
    rw [run_snoc]
    have old : ∀ h ∈ (run es).hunts, (∃ p, Ev.drive h.drive (.pursue p) ∈ es ++ [e] ∧ p = h.p) ∧
        ((run es).dinv h.drive = true ∨ (h.s.outs = [] ∧ ∃ l, h.s = Monitors.run h.p l ∧ ∀ x ∈ l, ∃ i, Ev.mon i x ∈ es ++ [e])) := by
      intro h hh
      obtain ⟨⟨p, h1, h2⟩, h3⟩ := ih h hh
      refine ⟨⟨p, List.mem_append_left _ h1, h2⟩, ?_⟩
      rcases h3 with h3 | ⟨h3, l, h4, h5⟩
      · exact Or.inl h3
      · exact Or.inr ⟨h3, l, h4, fun x hx => by obtain ⟨i, hi⟩ := h5 x hx; exact ⟨i, List.mem_append_left _ hi⟩⟩
    cases e with
    | drive d a =>
      rw [step_drive]
      by_cases hd : (run es).dinv d = true
      · rw [if_pos hd]; exact old
      · rw [if_neg hd]
        cases a with
        | idle => exact old
        | known b =>
          intro h hh
          obtain ⟨h1, h2⟩ := old h hh
          refine ⟨h1, ?_⟩
          rcases h2 with h2 | h2
          · exact Or.inl (by simp [tell, h2])
          · exact Or.inr h2
        | pursue p =>
          intro h hh
          rcases List.mem_append.mp hh with hh | hh
          · exact old h hh
          · simp only [List.mem_singleton] at hh
            subst hh
            exact ⟨⟨p, by simp, rfl⟩, Or.inr ⟨rfl, [], rfl, by simp⟩⟩
    | gone d =>
      intro h hh
      obtain ⟨h1, h2⟩ := old h hh
      refine ⟨h1, ?_⟩
      rcases h2 with h2 | h2
      · exact Or.inl (by simp [step, act, h2])
      · exact Or.inr h2
    | mon i x =>
      unfold step
      simp only [act, flag]
      cases hi : (run es).hunts[i]? with
      | none => exact old
      | some h =>
        dsimp only
        have hm : h ∈ (run es).hunts := List.mem_of_getElem? hi
        obtain ⟨o1, o2⟩ := old h hm
        by_cases hdv : (run es).dinv h.drive = true
        · -- the drive is gone
          have hl : latest h.s (Monitors.act h.p (h.view (run es)).inv (h.view (run es)) x) = none := by
            have hf : (h.view (run es)).inv = true := by simp [Hunt.view, hdv]
            have := (Monitors.step_inv h.p (h.view (run es)) x hf).2.1
            unfold latest
            rw [if_pos]
            exact congrArg List.length this
          rw [hl]
          intro h' hh'
          rcases List.mem_or_eq_of_mem_set hh' with hh' | rfl
          · exact old h' hh'
          · exact ⟨o1, Or.inl hdv⟩
        · rcases o2 with o2 | ⟨o2, l, o3, o4⟩
          · exact absurd o2 hdv
          · have hv : h.view (run es) = h.s := by
              have : (run es).dinv h.drive = false := by simpa using hdv
              unfold Hunt.view
              rw [this, Bool.or_false]
            rw [hv]
            have hstep : Monitors.act h.p h.s.inv h.s x = Monitors.run h.p (l ++ [x]) := by
              rw [Monitors.run_snoc, ← o3]
              rfl
            rw [hstep]
            have hmem : ∀ y ∈ l ++ [x], ∃ j, Ev.mon j y ∈ es ++ [.mon i x] := by
              intro y hy
              rcases List.mem_append.mp hy with hy | hy
              · exact o4 y hy
              · simp only [List.mem_singleton] at hy
                subst hy
                exact ⟨i, by simp⟩
            cases hl : latest h.s (Monitors.run h.p (l ++ [x])) with
            | none =>
              intro h' hh'
              rcases List.mem_or_eq_of_mem_set hh' with hh' | rfl
              · exact old h' hh'
              · refine ⟨o1, Or.inr ⟨?_, _, rfl, hmem⟩⟩
                dsimp only
                unfold latest at hl
                by_cases hlen : (Monitors.run h.p (l ++ [x])).outs.length = h.s.outs.length
                · rw [o2] at hlen
                  exact List.eq_nil_of_length_eq_zero hlen
                · rw [if_neg hlen] at hl
                  cases ho : (Monitors.run h.p (l ++ [x])).outs with
                  | nil => rfl
                  | cons a as => rw [ho] at hl; cases hl
            | some b =>
              intro h' hh'
              rcases List.mem_or_eq_of_mem_set hh' with hh' | rfl
              · obtain ⟨h1, h2⟩ := old h' hh'
                refine ⟨h1, ?_⟩
                rcases h2 with h2 | h2
                · exact Or.inl (by simp [tell, h2])
                · exact Or.inr h2
              · exact ⟨o1, Or.inl (by simp [tell])⟩

/-- The outcome of a drive is told for good reason. -/
theorem told_reason (es : List Ev) (e : Ev) (hs : Sane es) : (run (es ++ [e])).told = (run es).told ∨
    ∃ d b, (run (es ++ [e])).told = (d, b) :: (run es).told ∧ Reason (run es) (run (es ++ [e])) e d b := by
  rcases step_told (run es) e with ⟨h1, _⟩ | ⟨d, b, h1, h2, h3, h4⟩
  · rw [run_snoc]; exact Or.inl h1
  · refine Or.inr ⟨d, b, by rw [run_snoc]; exact h2, ?_⟩
    rcases h4 with rfl | ⟨i, h, x, rfl, hi, rfl, hinv, hl⟩
    · exact Or.inl rfl
    · refine Or.inr ⟨i, h, x, rfl, hi, rfl, ?_⟩
      obtain ⟨⟨p, hp, rfl⟩, hr⟩ := hunts_run es h (List.mem_of_getElem? hi)
      rcases hr with hr | ⟨ho, l, hl', _⟩
      · rw [h1] at hr; cases hr
      · have hst : Monitors.step h.p h.s x = Monitors.run h.p (l ++ [x]) := by rw [Monitors.run_snoc, ← hl']
        rw [hst] at hl
        have hne : (Monitors.run h.p (l ++ [x])).outs ≠ (Monitors.run h.p l).outs := by
          intro heq
          unfold latest at hl
          rw [hl', if_pos (congrArg List.length heq)] at hl
          cases hl
        obtain ⟨r, hr1, hr2, hr3⟩ := (Monitors.C48_outcomes_partial h.p (hs _ _ hp).2 l).2.2.1 x hne
        have hb : b = r.success := by
          unfold latest at hl
          rw [hr1, ho, if_neg (by simp)] at hl
          simpa using hl.symm
        subst hb
        rcases hr3 with ⟨k1, _, t, f, k2, k3⟩ | ⟨k1, t, f, k2⟩ | ⟨k1, k2, t, k, k3⟩
        · exact Or.inl ⟨k1, t, f, k2, k3⟩
        · exact Or.inr (Or.inl ⟨k1, t, f, k2⟩)
        · refine Or.inr (Or.inr ⟨k1, ⟨t, k, k3⟩, { h with s := Monitors.run h.p (l ++ [x]) }, ?_, ?_⟩)
          · rw [run_snoc]
            have hv : h.view (run es) = h.s := by
              unfold Hunt.view
              rw [h1, Bool.or_false]
            unfold step
            simp only [act, flag, hi, hv]
            rw [show Monitors.act h.p h.s.inv h.s x = Monitors.run h.p (l ++ [x]) from hst, hl]
            simp only [tell]
            rw [List.getElem?_set_self]
            exact (List.getElem?_eq_some_iff.mp hi).1
          · dsimp only
            rw [← hr2]
            exact k2

/-- A drive that nobody else invalidated is invalidated only if its outcome was told. -/
theorem dinv_told (es : List Ev) (d : Nat) (hu : Ev.gone d ∉ es) : (run es).dinv d = true → 0 < times (run es) d := by
  induction es using List.reverseRecOn with
  | nil => simp [run]
  | append_singleton es e ih =>
    rw [run_snoc]
    have hu' : Ev.gone d ∉ es := fun h => hu (List.mem_append_left _ h)
    have he : e ≠ .gone d := fun h => hu (by simp [h])
    intro hd
    have key : ∀ w : World, (∀ x, (step w e).dinv x = w.dinv x) ∨ (∃ d', d' ≠ d ∧ ∀ x, (step w e).dinv x = (x == d' || w.dinv x)) ∨
        ∃ d' b, (step w e).told = (d', b) :: w.told ∧ ∀ x, (step w e).dinv x = (x == d' || w.dinv x) := by
      intro w
      cases e with
      | drive x a =>
        rw [step_drive]
        split
        · exact Or.inl fun _ => rfl
        · cases a with
          | idle => exact Or.inl fun _ => rfl
          | pursue p => exact Or.inl fun _ => rfl
          | known b => exact Or.inr (Or.inr ⟨x, b, rfl, fun _ => rfl⟩)
      | gone x => exact Or.inr (Or.inl ⟨x, fun h => he (by rw [h]), fun _ => rfl⟩)
      | mon i x =>
        unfold step
        simp only [act, flag]
        cases w.hunts[i]? with
        | none => exact Or.inl fun _ => rfl
        | some h =>
          dsimp only
          cases latest h.s (Monitors.act h.p (h.view w).inv (h.view w) x) with
          | none => exact Or.inl fun _ => rfl
          | some b => exact Or.inr (Or.inr ⟨h.drive, b, rfl, fun _ => rfl⟩)
    have mono : 0 < times (run es) d → 0 < times (step (run es) e) d := by
      intro h
      unfold times at h ⊢
      rcases step_told (run es) e with ⟨h1, _⟩ | ⟨d', b, _, h2, _⟩
      · rw [h1]; exact h
      · rw [h2, List.filter_cons]
        split
        · simp
        · exact h
    rcases key (run es) with h | ⟨d', hd', h⟩ | ⟨d', b, ht, h⟩
    · rw [h] at hd; exact mono (ih hu' hd)
    · rw [h] at hd
      have : (d == d') = false := by simpa using Ne.symm hd'
      rw [this, Bool.false_or] at hd
      exact mono (ih hu' hd)
    · by_cases hdd : d = d'
      · subst hdd
        unfold times
        rw [ht]
        simp
      · rw [h] at hd
        have : (d == d') = false := by simpa using hdd
        rw [this, Bool.false_or] at hd
        exact mono (ih hu' hd)

/-- C129 for events that are not interrupted: the outcome of a drive is shown once at most, for good reason, and, unless
a prediction of success or a refuted ground silences a monitor, it is shown when a goal made for it has run its course.
Missing: two cores at once, and those silences; see `C129_outcomes_violated`. -/
theorem C129_outcomes_partial :
    (∀ es d, times (fine (interleave es)) d ≤ 1) ∧
    (∀ es e, Sane es → (run (es ++ [e])).told = (run es).told ∨
      ∃ d b, (run (es ++ [e])).told = (d, b) :: (run es).told ∧ Reason (run es) (run (es ++ [e])) e d b) ∧
    (∀ es h, Sane es → h ∈ (run es).hunts → Undisturbed h.drive es →
      (∀ i t g f, Ev.mon i (.input t (.actual true g f)) ∉ es) → (∀ i t s q, Ev.mon i (.input t (.predicted s .positive q)) ∉ es) →
      h.s.jobs = [] → 0 < times (run es) h.drive) := by
  refine ⟨fun es d => by rw [fine_interleave]; exact (told_once es d).1, told_reason, ?_⟩
  intro es h hs hh hu h1 h2 hj
  obtain ⟨⟨p, hp, rfl⟩, hr⟩ := hunts_run es h hh
  rcases hr with hr | ⟨ho, l, hl, hm⟩
  · exact dinv_told es h.drive (fun hg => (hu _ hg).1 rfl) hr
  · exfalso
    have := (Monitors.C48_outcomes_partial h.p (hs _ _ hp).2 l).2.2.2.2.1 (by
      intro x hx
      obtain ⟨i, hi⟩ := hm x hx
      intro hsil
      unfold Monitors.Silencing at hsil
      split at hsil
      · exact ((hu _ hi).2 i _).1 rfl
      · subst hsil; exact ((hu _ hi).2 i _).2 rfl
      · exact h2 _ _ _ _ hi
      · exact h1 _ _ _ _ hi
      · exact hsil) (by rw [← hl]; exact hj)
    rw [← hl, ho] at this
    cases this

namespace Ex
def p10 : Monitors.Params := ⟨.goal, 10, 0, 0, false, none⟩
def hit (i : Nat) : Ev := .mon i (.input 1 (.actual false .positive true))
end Ex

/-- C129 fails as stated: two models which pursue the same drive, on two cores, both tell its outcome; a prediction of
success silences the monitor, the drive is left without an outcome. -/
theorem C129_outcomes_violated : ¬ C129_full ∧
    (fine [.act 0 (.drive 7 (.pursue p10)), .act 0 (.drive 7 (.pursue p10)), .look 0 (hit 0), .look 1 (hit 1), .act 0 (hit 0),
      .act 1 (hit 1)]).told = [(7, true), (7, true)] ∧
    (let w := run [.drive 7 (.pursue p10), .mon 0 (.input 1 (.predicted none .positive 1)), .mon 0 (.fire 20 0)]
     w.told = [] ∧ w.hunts.map (fun h => h.s.jobs) = [[]]) := by
  have h1 : (fine [.act 0 (.drive 7 (.pursue p10)), .act 0 (.drive 7 (.pursue p10)), .look 0 (hit 0), .look 1 (hit 1), .act 0 (hit 0),
      .act 1 (hit 1)]).told = [(7, true), (7, true)] := by decide +kernel
  refine ⟨fun hf => ?_, h1, by decide +kernel⟩
  have := hf.1 [.act 0 (.drive 7 (.pursue p10)), .act 0 (.drive 7 (.pursue p10)), .look 0 (hit 0), .look 1 (hit 1), .act 0 (hit 0),
      .act 1 (hit 1)] 7
  unfold times at this
  rw [h1] at this
  exact absurd this (by decide)

/-- C129 is not vacuous: two models pursue two drives; one succeeds, which ends the pursuit of the other model; one times
out. -/
theorem C129_nonvacuous :
    (run [.drive 7 (.pursue p10), .drive 7 (.pursue p10), .drive 8 (.pursue p10), hit 1, hit 0, .drive 7 (.known false),
      .mon 2 (.fire 12 0)]).told = [(8, false), (7, true)] ∧
    Sane [.drive 7 (.pursue p10), .drive 7 (.pursue p10), .drive 8 (.pursue p10), hit 1, hit 0, .drive 7 (.known false),
      .mon 2 (.fire 12 0)] := by
  refine ⟨by decide +kernel, ?_⟩
  intro d p hp
  simp only [hit, List.mem_cons, Ev.drive.injEq, Ans.pursue.injEq, reduceCtorEq, and_false, List.not_mem_nil, or_false, false_or] at hp
  rcases hp with ⟨_, rfl⟩ | ⟨_, rfl⟩ | ⟨_, rfl⟩ <;> decide

end Verif.Drives
