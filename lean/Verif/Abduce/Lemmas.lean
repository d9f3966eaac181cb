import Verif.Abduce.Spec
import Verif.Requirements.Props
/-!
# Lemmas
-/
namespace Verif.Abduce
open Verif.F32 (Arith)
open Verif.Requirements (Status Acc Entry)

theorem able_iff (now : Int) (r : Ready) : r.able now = true ↔ CanRun now r := by
  unfold Ready.able CanRun
  cases h : r.fwdBefore with
  | none => simp
  | some b =>
    dsimp only
    by_cases hb : b ≤ now
    · rw [if_pos hb]; simp; omega
    · rw [if_neg hb]; simp; omega

theorem target_says (A : Arith) (l : Bound) (o : Bool) (conf : Rat) : Says A l o conf (target A l o conf) :=
  ⟨rfl, by cases h : l.positive <;> cases o <;> simp [target, h], rfl, rfl, rfl⟩

theorem says_eq {A : Arith} {l : Bound} {o : Bool} {conf : Rat} {t : Target} (h : Says A l o conf t) :
    t = target A l o conf := by
  obtain ⟨h1, h2, h3, h4, h5⟩ := h
  cases t
  simp only [target, Target.mk.injEq] at *
  refine ⟨h1, ?_, h3, h4, h5⟩
  rename_i p _ _ _
  cases p <;> cases h : l.positive <;> cases o <;> simp_all

theorem instTarget_instance (A : Arith) (l : Bound) (conf : Rat) : Instance A l conf (instTarget A l conf) :=
  ⟨rfl, rfl, rfl, rfl, rfl⟩

theorem reduce_idle (A : Arith) (c : Ctl) (now : Int) (rdy : Ready) (K : Known) (fresh : Target → Bool) (B : Binds) (a sa : Acc)
    (g : Goal) (m : Meets) (h : A.mul c.rate g.cfd ≤ c.thr ∨ ¬ CanRun now rdy ∨ m = .no) :
    reduceGoal A c now rdy K fresh B a sa g m = [] := by
  unfold reduceGoal
  dsimp only
  by_cases hc : A.mul c.rate g.cfd ≤ c.thr
  · rw [if_pos hc]
  · rw [if_neg hc]
    rcases h with h | h | h
    · exact absurd h hc
    · have : rdy.able now = false := by
        rw [← able_iff] at h; simpa using h
      cases m <;> simp [abduce, this]
    · subst h; rfl

theorem reduce_run (A : Arith) (c : Ctl) (now : Int) (rdy : Ready) (K : Known) (fresh : Target → Bool) (B : Binds) (a sa : Acc)
    (g : Goal) (m : Meets) (opposite : Bool) (h : c.thr < A.mul c.rate g.cfd) (hm : Concerns m opposite) :
    reduceGoal A c now rdy K fresh B a sa g m =
      abduce A c now rdy K fresh B a sa g opposite (A.mul c.rate g.cfd) := by
  unfold reduceGoal
  dsimp only
  rw [if_neg (not_le.mpr h)]
  rcases hm with ⟨rfl, rfl | rfl⟩ | ⟨rfl, rfl⟩ <;> rfl

theorem abduce_actual (A : Arith) (c : Ctl) (now : Int) (rdy : Ready) (K : Known) (fresh : Target → Bool) (B : Binds) (a sa : Acc)
    (g : Goal) (opposite : Bool) (conf : Rat) (hr : CanRun now rdy) (hg : Actual c g) :
    abduce A c now rdy K fresh B a sa g opposite conf = act A c now K B a g opposite conf := by
  have h : rdy.able now = true := (able_iff now rdy).mpr hr
  unfold abduce
  rw [h]
  simp only [Bool.not_true, Bool.false_eq_true, if_false]
  cases hs : g.sim with
  | none => rfl
  | some s =>
    dsimp only
    obtain ⟨h1, h2⟩ := hg s hs
    rw [if_neg (by omega), if_pos h1]

theorem act_open (A : Arith) (c : Ctl) (now : Int) (K : Known) (B : Binds) (a : Acc) (g : Goal) (opposite : Bool) (conf : Rat)
    (h : Open a) : act A c now K B a g opposite conf =
      pursue A c now K (B.lhs a.loaded) (a.r = .weakEnabled) opposite conf g.id (noSim c g.id opposite)
        (a.ground.map Entry.id) false := by
  unfold act
  rcases h with h | h <;> rw [h]

theorem act_closed (A : Arith) (c : Ctl) (now : Int) (K : Known) (B : Binds) (a : Acc) (g : Goal) (opposite : Bool) (conf : Rat)
    (h : ¬ Open a) : act A c now K B a g opposite conf =
      askInst A c now (B.inst none) conf g.id g.before { noSim c g.id opposite with isReq := true } := by
  unfold act
  cases hr : a.r <;> simp [Open, hr] at h ⊢

theorem subSim_spec {A : Arith} {c : Ctl} {now : Int} {conf : Rat} {g : Goal} {s s' : Sim} {o : Bool}
    (h : subSim A c now conf g.id s (s.thz - c.minThz.tdiv 2) o = some s') :
    SubSim A c now conf g s o s' ∧ s'.isReq = false := by
  unfold subSim at h
  cases hm : s.mode <;> rw [hm] at h <;> dsimp only at h
  · cases h
    exact ⟨⟨rfl, rfl, rfl, rfl, by cases o <;> simp [hm], rfl, fun _ => ⟨rfl, rfl⟩, fun h => absurd hm h⟩, rfl⟩
  · cases h
    exact ⟨⟨rfl, rfl, rfl, rfl, by cases o <;> simp [hm], rfl, fun h => by simp [hm] at h, fun _ => ⟨rfl, rfl⟩⟩, rfl⟩
  · cases o
    · simp at h
      cases h
      exact ⟨⟨rfl, rfl, rfl, rfl, by simp [hm], rfl, fun h => by simp [hm] at h, fun _ => ⟨rfl, rfl⟩⟩, rfl⟩
    · simp at h

theorem subSim_none {A : Arith} {c : Ctl} {now : Int} {conf : Rat} {sup : Nat} {s : Sim} {o : Bool} {thz : Int} :
    subSim A c now conf sup s thz o = none ↔ s.mode = .mandatory ∧ o = true := by
  unfold subSim
  cases hm : s.mode <;> cases o <;> simp

theorem abduce_sim (A : Arith) (c : Ctl) (now : Int) (rdy : Ready) (K : Known) (fresh : Target → Bool) (B : Binds) (a sa : Acc)
    (g : Goal) (opposite : Bool) (conf : Rat) (s : Sim) (hr : CanRun now rdy) (hg : Simulated c g s) :
    abduce A c now rdy K fresh B a sa g opposite conf =
      match subSim A c now conf g.id s (s.thz - c.minThz.tdiv 2) opposite with
      | none => []
      | some s' => simulate A c now K fresh B a sa g opposite conf s' := by
  have h : rdy.able now = true := (able_iff now rdy).mpr hr
  unfold abduce
  rw [h, hg.1]
  simp only [Bool.not_true, Bool.false_eq_true, if_false]
  rw [if_pos (show s.thz > c.minThz.tdiv 2 from hg.2)]
  cases subSim A c now conf g.id s (s.thz - c.minThz.tdiv 2) opposite <;> rfl

theorem abduce_end (A : Arith) (c : Ctl) (now : Int) (rdy : Ready) (K : Known) (fresh : Target → Bool) (B : Binds) (a sa : Acc)
    (g : Goal) (opposite : Bool) (conf : Rat) (s : Sim) (hr : CanRun now rdy) (hg : Ends c g s) :
    abduce A c now rdy K fresh B a sa g opposite conf = endSim A c now B.raw opposite conf s := by
  have h : rdy.able now = true := (able_iff now rdy).mpr hr
  unfold abduce
  rw [h, hg.1]
  simp only [Bool.not_true, Bool.false_eq_true, if_false]
  rw [if_neg (by have := hg.2.1; omega), if_neg hg.2.2]

/-- In a simulation below another, what is open. -/
theorem simulate_open (A : Arith) (c : Ctl) (now : Int) (K : Known) (fresh : Target → Bool) (B : Binds) (a sa : Acc) (g : Goal)
    (o : Bool) (conf : Rat) (s : Sim) (hs : s.mode ≠ .root) (h : Open a) :
    simulate A c now K fresh B a sa g o conf s =
      pursueSim A c now K fresh (B.lhs a.loaded) o conf g.id s ++
        (if c.isCmd then askInstSim A c now fresh (B.inst none) conf s else []) := by
  unfold simulate
  rcases h with h | h <;> rw [h] <;> dsimp only <;> rw [if_neg hs]

theorem simulate_sim (A : Arith) (c : Ctl) (now : Int) (K : Known) (fresh : Target → Bool) (B : Binds) (a sa : Acc) (g : Goal)
    (o : Bool) (conf : Rat) (s : Sim) (hs : s.mode ≠ .root) (h : ¬ Open a) (hw : sa.r = .weakEnabled) :
    simulate A c now K fresh B a sa g o conf s = pursueSim A c now K fresh (B.lhs sa.loaded) o conf g.id s := by
  unfold simulate
  cases hr : a.r <;> simp [Open, hr] at h ⊢ <;> rw [hw] <;> simp [hs]

theorem simulate_closed (A : Arith) (c : Ctl) (now : Int) (K : Known) (fresh : Target → Bool) (B : Binds) (a sa : Acc) (g : Goal)
    (o : Bool) (conf : Rat) (s : Sim) (hs : s.mode ≠ .root) (h : ¬ Open a) (hw : sa.r ≠ .weakEnabled) (hag : Agree a sa) :
    simulate A c now K fresh B a sa g o conf s =
      askInstSim A c now fresh (B.inst sa.loaded) conf { s with isReq := true } := by
  unfold simulate
  cases hr : a.r <;> simp [Open, hr] at h ⊢ <;> cases hsa : sa.r <;> simp [hs, hsa] at hw ⊢ <;>
    · have := hag hsa; simp [hr] at this

theorem checkSim_cases (A : Arith) (c : Ctl) (now : Int) (K : Known) (same : Target → Target → Bool) (B : Binds) (sa : Acc)
    (G : Entry → Ground) (s : Sim) (conf : Rat) (issued : List Issued) {r : List Eff × List Issued × Bool}
    (h : checkSim A c now K same B sa G s conf issued = some r) : r.1 = [] ∨ ∃ l i e, Open sa ∧
      B.lhs sa.loaded = some (l, i) ∧ sa.ground = some e ∧
      (r.1, r.2.1) = signal c now same (decide (sa.r = .weakEnabled)) (target A l s.opposite conf) (G e) issued := by
  unfold checkSim at h
  by_cases ho : sa.r = .weakEnabled ∨ sa.r = .noRequirement
  swap
  · rw [if_neg ho] at h; cases h; exact Or.inl rfl
  rw [if_pos ho] at h
  cases hl : B.lhs sa.loaded with
  | none => rw [hl] at h; cases h; exact Or.inl rfl
  | some x =>
    obtain ⟨l, i⟩ := x
    rw [hl] at h
    dsimp only at h
    by_cases hk : (K.seen (target A l s.opposite conf)).isSome ∨ (K.foreseen (target A l s.opposite conf)).isSome
    · rw [if_pos hk] at h; cases h; exact Or.inl rfl
    rw [if_neg hk] at h
    cases hg : sa.ground with
    | none => rw [hg] at h; cases h
    | some e =>
      rw [hg] at h
      cases h
      exact Or.inr ⟨l, i, e, ho, rfl, rfl, rfl⟩

theorem signal_effects (c : Ctl) (now : Int) (same : Target → Target → Bool) (weak : Bool) (t : Target) (g : Ground)
    (issued : List Issued) : (signal c now same weak t g issued).1 = [] ∨
      (signal c now same weak t g issued).1 = injectSim c now now t (.pred t g.sims
        (g.validities ++ (if weak = true ∧ 0 < c.wr ∧ 0 < c.sr then [g.consequence] else []))) := by
  unfold signal
  generalize g.validities ++ (if weak = true ∧ 0 < c.wr ∧ 0 < c.sr then [g.consequence] else []) = vs
  dsimp only
  split
  · split
    · exact Or.inl rfl
    · exact Or.inr rfl
  · exact Or.inr rfl

end Verif.Abduce
