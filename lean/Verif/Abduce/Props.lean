import Verif.Abduce.Lemmas
/-!
# Properties of backward chaining
-/
namespace Verif.Abduce
open Verif.F32 (Arith)
open Verif.Requirements (Status Acc Entry)

/-! ## C119 -/

theorem C119_pursued : C119_full := by
  intro A c now rdy K fresh B a sa g m hg
  refine ⟨reduce_idle A c now rdy K fresh B a sa g m, ?_, ?_, ?_⟩
  · intro o l i t hc hr hm ho hl ht
    rw [reduce_run A c now rdy K fresh B a sa g m o hc hm, abduce_actual A c now rdy K fresh B a sa g o _ hr hg,
      act_open A c now K B a g o _ ho, hl, says_eq ht]
    unfold pursue
    dsimp only
    constructor
    · intro hk
      cases h : K.seen (target A l o (A.mul c.rate g.cfd)) with
      | none => exact absurd h hk
      | some x => rfl
    · intro hk
      rw [hk]
      refine ⟨noSim c g.id o, ⟨rfl, rfl, rfl, rfl, rfl, rfl⟩, ?_, ?_⟩
      · intro e he
        rw [he]; rfl
      · intro hne
        refine ⟨Lifetime.goalRes c.ref c.upr now (now - now), decide (a.r = .weakEnabled), by simp, ?_⟩
        cases h : K.foreseen (target A l o (A.mul c.rate g.cfd)) with
        | none => rfl
        | some x =>
          obtain ⟨e, b⟩ := x
          cases b with
          | false => rfl
          | true => exact absurd h (hne e)
  · intro ho hl
    by_cases hi : A.mul c.rate g.cfd ≤ c.thr ∨ ¬ CanRun now rdy ∨ m = .no
    · exact reduce_idle A c now rdy K fresh B a sa g m hi
    · have h1 : c.thr < A.mul c.rate g.cfd := not_le.mp (fun h => hi (Or.inl h))
      have h2 : CanRun now rdy := not_not.mp (fun h => hi (Or.inr (Or.inl h)))
      have h3 : ∃ o, Concerns m o := by
        cases m with
        | rhs => exact ⟨false, Or.inl ⟨rfl, Or.inl rfl⟩⟩
        | inst => exact ⟨false, Or.inl ⟨rfl, Or.inr rfl⟩⟩
        | notRhs => exact ⟨true, Or.inr ⟨rfl, rfl⟩⟩
        | no => exact absurd (Or.inr (Or.inr rfl)) hi
      obtain ⟨o, h3⟩ := h3
      rw [reduce_run A c now rdy K fresh B a sa g m o h1 h3, abduce_actual A c now rdy K fresh B a sa g o _ h2 hg,
        act_open A c now K B a g o _ ho, hl]
      rfl
  · intro o hc hr hm ho
    rw [reduce_run A c now rdy K fresh B a sa g m o hc hm, abduce_actual A c now rdy K fresh B a sa g o _ hr hg,
      act_closed A c now K B a g o _ ho]
    refine ⟨instTarget A (B.inst none) (A.mul c.rate g.cfd), { noSim c g.id o with isReq := true },
      Lifetime.goalRes c.ref c.upr now (now - now), instTarget_instance _ _ _, ⟨rfl, rfl, rfl, rfl, rfl, rfl⟩, ?_⟩
    simp [askInst, injectGoal, noSim]

namespace Ex
/-- A model of a command with one weak requirement and one strong one. -/
def ctl : Ctl := { id := 1, isCmd := true, rate := 1, thr := 1 / 2, minThz := 10, wr := 1, sr := 1 }
def plain : Ctl := { ctl with isCmd := false, id := 2 }
def nothing : Known := ⟨fun _ => none, fun _ => none⟩
def req : Entry := ⟨7, false, 0, 100, 1, 3, true⟩
def binds : Binds :=
  { lhs := fun e => match e with
      | some _ => some (⟨20, true, 50, 100⟩, 30)
      | none => some (⟨21, true, 50, 100⟩, 31)
    raw := ⟨22, true, 50, 100⟩
    inst := fun _ => ⟨31, true, 0, 90⟩ }
def ready : Ready := ⟨some 100, true⟩
/-- The weak requirement allows the model. -/
def yes : Acc := { r := .weakEnabled, loaded := some req, ground := some req }
/-- Nothing does. -/
def no : Acc := { r := .weakDisabled }
/-- A goal to be acted upon. -/
def goal : Goal := { id := 5, cfd := 1, before := 200 }
/-- The goal of a drive, simulated. -/
def sim : Sim := { mode := .root, thz := 100, sup := 4, root := 9 }
def simGoal : Goal := { goal with sim := some sim }
/-- A sub-goal in that simulation. -/
def below : Sim := { mode := .optional, thz := 50, sup := 4, root := 9, sol := some 8, solCfd := 1, solBefore := 80 }
def subGoal : Goal := { goal with sim := some below }
def lastGoal : Goal := { goal with sim := some { below with thz := 5 } }
end Ex
open Ex

/-- The model is pursued when its requirement allows it, its instance is asked for otherwise, and a negative match
turns the left-hand side into its contrary. -/
theorem C119_nonvacuous :
    Actual plain goal ∧ CanRun 10 ready ∧ Open yes ∧ ¬ Open no ∧ Concerns .notRhs true ∧
    (∃ t s res, reduceGoal F32.exact plain 10 ready nothing (fun _ => true) binds yes no goal .notRhs =
      [.watch .g (.goal t s (some 7)) 100 0 none, .inject (.goal t s (some 7)) 10 res, .rdx 30 true 5 (.goal t s (some 7))] ∧
      t = ⟨.thing 20, false, 50, 100, 1⟩) ∧
    (∃ t s res, reduceGoal F32.exact plain 10 ready nothing (fun _ => true) binds no no goal .rhs =
      [.watch .r (.goal t s none) 200 10 none, .inject (.goal t s none) 10 res, .rdx 31 false 5 (.goal t s none)] ∧
      t.obj = .inst 31 false) := by
  refine ⟨?_, ⟨⟨100, rfl, by decide⟩, rfl⟩, Or.inl rfl, ?_, Or.inr ⟨rfl, rfl⟩, ?_, ?_⟩
  · intro s h; cases h
  · rintro (h | h) <;> cases h
  · exact ⟨⟨.thing 20, false, 50, 100, 1⟩, noSim plain 5 true, 1, by decide +kernel, rfl⟩
  · exact ⟨⟨.inst 31 false, true, 0, 90, 1⟩, { noSim plain 5 false with isReq := true }, 1, by decide +kernel, rfl⟩

/-! ## C120 -/

/-- The goal is given the shortest life, although its end is far; and when the requirement comes late, the goal made
from it is past. -/
theorem C120_life_violated : ¬ C120_full ∧
    (∃ t, (t, 10, 1) ∈ injected (reduceGoal F32.exact plain 10 ready nothing (fun _ => true) binds yes no goal .rhs) ∧
      t.before = 100 ∧ Lifetime.goalRes plain.ref plain.upr 10 (100 - 10) = 90) ∧
    (∃ t, (t, 150, 1) ∈ injected (check F32.exact plain 150 nothing binds yes { noSim plain 5 false with isReq := true } 1).1 ∧
      t.before = 100) := by
  have h1 : ((⟨.thing 20, true, 50, 100, 1⟩ : Target), (10 : Int), (1 : Int)) ∈
      injected (reduceGoal F32.exact plain 10 ready nothing (fun _ => true) binds yes no goal .rhs) := by decide +kernel
  have h2 : Lifetime.goalRes plain.ref plain.upr 10 (100 - 10) = 90 := by decide +kernel
  refine ⟨?_, ⟨_, h1, rfl, h2⟩, ⟨⟨.thing 20, true, 50, 100, 1⟩, by decide +kernel, rfl⟩⟩
  intro h
  have := (h.1 F32.exact plain 10 ready nothing (fun _ => true) binds yes no goal .rhs _ _ _ h1).2
  rw [show ((⟨.thing 20, true, 50, 100, 1⟩ : Target).before - 10) = 100 - 10 from rfl, h2] at this
  exact absurd this (by decide)

theorem mem_injected_append (es es' : List Eff) (x) : x ∈ injected (es ++ es') ↔ x ∈ injected es ∨ x ∈ injected es' := by
  simp [injected, List.filterMap_append]

theorem injected_injectSim (c : Ctl) (now ijt : Int) (t : Target) (s : Sim) (gr : Option Nat) (sims vs) :
    injected (injectSim c now ijt t (.goal t s gr)) = [(t, ijt, Lifetime.goalRes c.ref c.upr now (t.before - now))] ∧
    injected (injectSim c now ijt t (.pred t sims vs)) = [(t, ijt, Lifetime.goalRes c.ref c.upr now (t.before - now))] :=
  ⟨rfl, rfl⟩

/-- The resilience is that for the end of the target. -/
def Lasting (c : Ctl) (now : Int) (es : List Eff) : Prop :=
  ∀ t ijt res, (t, ijt, res) ∈ injected es → now ≤ ijt ∧ res = Lifetime.goalRes c.ref c.upr now (t.before - now)

theorem lasting_nil (c : Ctl) (now : Int) : Lasting c now [] := by intro t i r h; simp [injected] at h
theorem lasting_append {c : Ctl} {now : Int} {es es' : List Eff} (h : Lasting c now es) (h' : Lasting c now es') :
    Lasting c now (es ++ es') := by
  intro t i r hm
  rcases (mem_injected_append _ _ _).mp hm with hm | hm
  · exact h t i r hm
  · exact h' t i r hm

theorem lasting_goal (c : Ctl) (now ijt : Int) (t : Target) (s : Sim) (gr : Option Nat) (h : now ≤ ijt) :
    Lasting c now (injectSim c now ijt t (.goal t s gr)) := by
  intro t' i r hm
  rw [(injected_injectSim c now ijt t s gr [] []).1] at hm
  simp at hm
  obtain ⟨rfl, rfl, rfl⟩ := hm
  exact ⟨h, rfl⟩

theorem lasting_pred (c : Ctl) (now ijt : Int) (t : Target) (sims vs) (h : now ≤ ijt) :
    Lasting c now (injectSim c now ijt t (.pred t sims vs)) := by
  intro t' i r hm
  rw [(injected_injectSim c now ijt t ⟨.root, 0, 0, false, 0, none, 0, 0, false⟩ none sims vs).2] at hm
  simp at hm
  obtain ⟨rfl, rfl, rfl⟩ := hm
  exact ⟨h, rfl⟩

theorem lasting_watch (c : Ctl) (now : Int) (k m x y z) : Lasting c now [.watch k m x y z] := by
  intro t i r h; simp [injected] at h

theorem lasting_pursueSim (A : Arith) (c : Ctl) (now : Int) (K : Known) (fresh : Target → Bool) (b : Option (Bound × Nat))
    (o : Bool) (conf : Rat) (sup : Nat) (s : Sim) : Lasting c now (pursueSim A c now K fresh b o conf sup s) := by
  unfold pursueSim
  cases b with
  | none => exact lasting_nil c now
  | some x =>
    obtain ⟨l, i⟩ := x
    dsimp only
    cases K.seen (target A l o conf) with
    | some _ => exact lasting_nil c now
    | none =>
      dsimp only
      cases K.foreseen (target A l o conf) with
      | some _ => exact lasting_nil c now
      | none =>
        dsimp only
        split
        · exact lasting_pred c now _ _ _ _ (le_max_left _ _)
        · split
          · exact lasting_append (lasting_watch c now _ _ _ _ _) (lasting_goal c now _ _ _ _ le_rfl)
          · exact lasting_nil c now

theorem lasting_askInstSim (A : Arith) (c : Ctl) (now : Int) (fresh : Target → Bool) (b : Bound) (conf : Rat) (s : Sim) :
    Lasting c now (askInstSim A c now fresh b conf s) := by
  unfold askInstSim
  dsimp only
  split
  · exact lasting_nil c now
  · exact lasting_append (lasting_watch c now _ _ _ _ _) (lasting_goal c now _ _ _ _ le_rfl)

theorem injected_pursue (A : Arith) (c : Ctl) (now : Int) (K : Known) (l : Bound) (i : Nat) (wre o : Bool) (conf : Rat)
    (sup : Nat) (s : Sim) (ground : Option Nat) (t : Target) (ijt res : Int)
    (h : (t, ijt, res) ∈ injected (pursue A c now K (some (l, i)) wre o conf sup s ground false)) : t.before = l.before := by
  unfold pursue at h
  dsimp only at h
  cases hk : K.seen (target A l o conf) with
  | some _ => rw [hk] at h; simp [injected] at h
  | none =>
    rw [hk] at h
    dsimp only at h
    rcases hf : K.foreseen (target A l o conf) with _ | ⟨e, _ | _⟩ <;> rw [hf] at h <;> simp [injected, injectGoal] at h
    · rw [h.1]; rfl
    · rw [h.1]; rfl

theorem simulate_cases (A : Arith) (c : Ctl) (now : Int) (K : Known) (fresh : Target → Bool) (B : Binds) (a sa : Acc) (g : Goal)
    (o : Bool) (conf : Rat) (s : Sim) (hs : s.mode ≠ .root) (P : List Eff → Prop)
    (h1 : ∀ e, P (pursueSim A c now K fresh (B.lhs e) o conf g.id s ++
        (if c.isCmd then askInstSim A c now fresh (B.inst none) conf s else [])))
    (h2 : ∀ e, P (pursueSim A c now K fresh (B.lhs e) o conf g.id s))
    (h3 : ∀ e, P (askInstSim A c now fresh (B.inst e) conf { s with isReq := true })) :
    P (simulate A c now K fresh B a sa g o conf s) := by
  unfold simulate
  cases hr : a.r <;> simp only [hs, if_false] <;>
    first
    | exact h1 _
    | (cases hsa : sa.r <;> simp [hs] <;> first | exact h2 _ | exact h3 _)

/-- What is missing: goals that are acted upon are given the resilience of a life of no length, and are not checked for
being past when a requirement arrives late. Proved: what is injected in simulations, goals and predictions alike, gets
the resilience for the end of its target, counted from now; a goal acted upon at once is in time if its left-hand side
ends when the forward timings do. -/
theorem C120_life_partial :
    (∀ A c now rdy K fresh B a sa g m, ¬ Actual c g → Lasting c now (reduceGoal A c now rdy K fresh B a sa g m)) ∧
    (∀ A c now K fresh B a s conf, Lasting c now (checkSimActual A c now K fresh B a s conf).1) ∧
    (∀ A c now K same B sa G s conf issued es issued' ok,
      checkSim A c now K same B sa G s conf issued = some (es, issued', ok) → Lasting c now es) ∧
    (∀ A c now rdy K fresh B a sa g m, Actual c g → Open a →
      (∀ l i, B.lhs a.loaded = some (l, i) → rdy.fwdBefore = some l.before) →
      ∀ t ijt res, (t, ijt, res) ∈ injected (reduceGoal A c now rdy K fresh B a sa g m) → now < t.before) := by
  refine ⟨?_, ?_, ?_, ?_⟩
  · intro A c now rdy K fresh B a sa g m hg
    by_cases hi : A.mul c.rate g.cfd ≤ c.thr ∨ ¬ CanRun now rdy ∨ m = .no
    · rw [reduce_idle A c now rdy K fresh B a sa g m hi]; exact lasting_nil c now
    · have h1 : c.thr < A.mul c.rate g.cfd := not_le.mp (fun h => hi (Or.inl h))
      have h2 : CanRun now rdy := not_not.mp (fun h => hi (Or.inr (Or.inl h)))
      have h3 : ∃ o, Concerns m o := by
        cases m with
        | rhs => exact ⟨false, Or.inl ⟨rfl, Or.inl rfl⟩⟩
        | inst => exact ⟨false, Or.inl ⟨rfl, Or.inr rfl⟩⟩
        | notRhs => exact ⟨true, Or.inr ⟨rfl, rfl⟩⟩
        | no => exact absurd (Or.inr (Or.inr rfl)) hi
      obtain ⟨o, h3⟩ := h3
      rw [reduce_run A c now rdy K fresh B a sa g m o h1 h3]
      cases hs : g.sim with
      | none => exact absurd (fun s h => by rw [hs] at h; cases h) hg
      | some s =>
        by_cases ht : c.minThz.tdiv 2 < s.thz
        · rw [abduce_sim A c now rdy K fresh B a sa g o _ s h2 ⟨hs, ht⟩]
          cases hss : subSim A c now (A.mul c.rate g.cfd) g.id s (s.thz - c.minThz.tdiv 2) o with
          | none => exact lasting_nil c now
          | some s' =>
            dsimp only
            apply simulate_cases A c now K fresh B a sa g o _ s' (subSim_spec hss).1.mode.2
            · intro e
              refine lasting_append (lasting_pursueSim A c now K fresh _ o _ g.id s') ?_
              split
              · exact lasting_askInstSim A c now fresh _ _ _
              · exact lasting_nil c now
            · intro e; exact lasting_pursueSim A c now K fresh _ o _ g.id s'
            · intro e; exact lasting_askInstSim A c now fresh _ _ _
        · have hm : s.mode ≠ .root := by
            intro hm
            apply hg
            intro s' h
            rw [hs] at h
            cases h
            exact ⟨hm, by omega⟩
          rw [abduce_end A c now rdy K fresh B a sa g o _ s h2 ⟨hs, by omega, hm⟩]
          exact lasting_pred c now _ _ _ _ le_rfl
  · intro A c now K fresh B a s conf
    unfold checkSimActual
    cases a.r <;> dsimp only <;> first | exact lasting_nil c now | skip
    all_goals
      split
      · exact lasting_pursueSim A c now K fresh _ _ _ _ _
      · exact lasting_nil c now
  · intro A c now K same B sa G s conf issued es issued' ok h
    rcases checkSim_cases A c now K same B sa G s conf issued h with h1 | ⟨l, i, r, _, _, _, h1⟩
    · simp only at h1
      rw [h1]
      exact lasting_nil c now
    · have h2 : es = (signal c now same (decide (sa.r = .weakEnabled)) (target A l s.opposite conf) (G r) issued).1 :=
        congrArg Prod.fst h1
      rcases signal_effects c now same (decide (sa.r = .weakEnabled)) (target A l s.opposite conf) (G r) issued with h3 | h3
      · rw [h2, h3]; exact lasting_nil c now
      · rw [h2, h3]; exact lasting_pred c now _ _ _ _ le_rfl
  · intro A c now rdy K fresh B a sa g m hg ho hb t ijt res hm
    by_cases hi : A.mul c.rate g.cfd ≤ c.thr ∨ ¬ CanRun now rdy ∨ m = .no
    · rw [reduce_idle A c now rdy K fresh B a sa g m hi] at hm; simp [injected] at hm
    · have h1 : c.thr < A.mul c.rate g.cfd := not_le.mp (fun h => hi (Or.inl h))
      have h2 : CanRun now rdy := not_not.mp (fun h => hi (Or.inr (Or.inl h)))
      have h3 : ∃ o, Concerns m o := by
        cases m with
        | rhs => exact ⟨false, Or.inl ⟨rfl, Or.inl rfl⟩⟩
        | inst => exact ⟨false, Or.inl ⟨rfl, Or.inr rfl⟩⟩
        | notRhs => exact ⟨true, Or.inr ⟨rfl, rfl⟩⟩
        | no => exact absurd (Or.inr (Or.inr rfl)) hi
      obtain ⟨o, h3⟩ := h3
      rw [reduce_run A c now rdy K fresh B a sa g m o h1 h3, abduce_actual A c now rdy K fresh B a sa g o _ h2 hg,
        act_open A c now K B a g o _ ho] at hm
      cases hl : B.lhs a.loaded with
      | none => rw [hl] at hm; simp [pursue, injected] at hm
      | some x =>
        obtain ⟨l, i⟩ := x
        obtain ⟨⟨b, hb1, hb2⟩, _⟩ := h2
        have hb3 := hb l i hl
        rw [hb1] at hb3
        cases hb3
        rw [hl] at hm
        rw [injected_pursue A c now K l i _ o _ _ _ _ t ijt res hm]
        exact hb2

theorem C120_nonvacuous : ¬ Actual ctl simGoal ∧
    (∃ t, (t, 58, 90) ∈ injected (reduceGoal F32.exact ctl 10 ready nothing (fun _ => true) binds yes no simGoal .rhs) ∧
      t.before = 100) := by
  refine ⟨?_, ⟨.thing 20, true, 50, 100, 1⟩, by decide +kernel, rfl⟩
  intro h
  have := (h sim rfl).2
  exact absurd this (by decide)

/-! ## C121 -/

theorem concerns_unique {m : Meets} {o o' : Bool} (h : Concerns m o) (h' : Concerns m o') : o = o' := by
  rcases h with ⟨rfl, h | h⟩ | ⟨rfl, h⟩ <;> rcases h' with ⟨rfl, h' | h'⟩ | ⟨rfl, h'⟩ <;> simp_all

/-- What is made belongs to a simulation below `s`. -/
def Below (A : Arith) (c : Ctl) (now : Int) (conf : Rat) (g : Goal) (s : Sim) (o : Bool) (e : Eff) : Prop :=
  ∃ s', SubSim A c now conf g s o s' ∧
    ((∃ t k ijt res x y z, e = .inject (.goal t s' none) ijt res ∨ e = .watch k (.goal t s' none) x y z) ∨
      ∃ t ijt res, e = .inject (.pred t [s'] []) ijt res)

theorem pursueSim_mem {A : Arith} {c : Ctl} {now : Int} {K : Known} {fresh : Target → Bool} {b : Option (Bound × Nat)}
    {o : Bool} {conf : Rat} {g : Goal} {s s' : Sim} (hs : SubSim A c now conf g s o s') {e : Eff}
    (h : e ∈ pursueSim A c now K fresh b o conf g.id s') : Below A c now conf g s o e := by
  unfold pursueSim at h
  cases b with
  | none => simp at h
  | some x =>
    obtain ⟨l, i⟩ := x
    dsimp only at h
    cases hk : K.seen (target A l o conf) with
    | some _ => rw [hk] at h; simp at h
    | none =>
      rw [hk] at h
      cases hf : K.foreseen (target A l o conf) with
      | some _ => rw [hf] at h; simp at h
      | none =>
        rw [hf] at h
        dsimp only at h
        split_ifs at h
        · simp only [injectSim, List.mem_singleton] at h
          exact ⟨{ mode := s'.mode, thz := s'.thz, sup := g.id, opposite := o, root := s'.root
                   sol := some c.id, solCfd := s'.solCfd, solBefore := s'.solBefore },
            ⟨hs.root, rfl, hs.thz, rfl, hs.mode, rfl, hs.first, hs.later⟩, Or.inr ⟨_, _, _, h⟩⟩
        · simp only [injectSim, List.mem_append, List.mem_singleton] at h
          rcases h with h | h
          · exact ⟨s', hs, Or.inl ⟨_, .sg, 0, 0, _, _, _, Or.inr h⟩⟩
          · exact ⟨s', hs, Or.inl ⟨_, .sg, _, _, 0, 0, none, Or.inl h⟩⟩
        · simp at h

theorem askInstSim_mem {A : Arith} {c : Ctl} {now : Int} {fresh : Target → Bool} {b : Bound}
    {o : Bool} {conf conf' : Rat} {g : Goal} {s s' : Sim} (hs : SubSim A c now conf g s o s') {e : Eff}
    (h : e ∈ askInstSim A c now fresh b conf' s') : Below A c now conf g s o e := by
  unfold askInstSim at h
  dsimp only at h
  split_ifs at h
  · simp at h
  · simp only [injectSim, List.mem_append, List.mem_singleton] at h
    rcases h with h | h
    · exact ⟨s', hs, Or.inl ⟨_, .sr, 0, 0, _, _, _, Or.inr h⟩⟩
    · exact ⟨s', hs, Or.inl ⟨_, .sg, _, _, 0, 0, none, Or.inl h⟩⟩

theorem SubSim.req {A : Arith} {c : Ctl} {now : Int} {conf : Rat} {g : Goal} {s s' : Sim} {o : Bool}
    (hs : SubSim A c now conf g s o s') : SubSim A c now conf g s o { s' with isReq := true } :=
  ⟨hs.root, hs.sup, hs.thz, hs.against, hs.mode, hs.sol, hs.first, hs.later⟩

/-- The simulation of the goal below a simulated one exists, and what is done is `simulate`. -/
theorem reduce_sim (A : Arith) (c : Ctl) (now : Int) (rdy : Ready) (K : Known) (fresh : Target → Bool) (B : Binds) (a sa : Acc)
    (g : Goal) (m : Meets) (s : Sim) (o : Bool) (hg : Simulated c g s) (hc : c.thr < A.mul c.rate g.cfd)
    (hr : CanRun now rdy) (hm : Concerns m o) (hn : ¬ (s.mode = .mandatory ∧ o = true)) :
    ∃ s', SubSim A c now (A.mul c.rate g.cfd) g s o s' ∧ s'.isReq = false ∧
      reduceGoal A c now rdy K fresh B a sa g m = simulate A c now K fresh B a sa g o (A.mul c.rate g.cfd) s' := by
  cases hss : subSim A c now (A.mul c.rate g.cfd) g.id s (s.thz - c.minThz.tdiv 2) o with
  | none => exact absurd (subSim_none.mp hss) hn
  | some s' =>
    refine ⟨s', (subSim_spec hss).1, (subSim_spec hss).2, ?_⟩
    rw [reduce_run A c now rdy K fresh B a sa g m o hc hm, abduce_sim A c now rdy K fresh B a sa g o _ s hr hg, hss]

/-- For a model that is allowed, `pursueSim` for the way to bind it, and perhaps the instance. -/
theorem simulate_simOpen (A : Arith) (c : Ctl) (now : Int) (K : Known) (fresh : Target → Bool) (B : Binds) (a sa : Acc) (g : Goal)
    (o : Bool) (conf : Rat) (s : Sim) (hs : s.mode ≠ .root) (e : Option Entry) (h : SimOpen a sa e) :
    ∃ es, simulate A c now K fresh B a sa g o conf s = pursueSim A c now K fresh (B.lhs e) o conf g.id s ++ es ∧
      (c.isCmd = false → es = []) := by
  rcases h with ⟨h, rfl⟩ | ⟨h, hw, rfl⟩
  · refine ⟨_, simulate_open A c now K fresh B a sa g o conf s hs h, ?_⟩
    intro hc; rw [hc]; rfl
  · exact ⟨[], by rw [simulate_sim A c now K fresh B a sa g o conf s hs h hw, List.append_nil], fun _ => rfl⟩

/-- What is missing: a branch that arrives at something known ends without a word, and the prediction at the end of a
simulation is not one the guards have been applied to. -/
theorem C121_simulated_partial :
    ∀ A c now rdy K fresh B a sa g m s, Agree a sa →
      (Simulated c g s → C121Body A c now rdy K fresh B a sa g m s (reduceGoal A c now rdy K fresh B a sa g m)) ∧
      (Ends c g s → ∀ o, c.thr < A.mul c.rate g.cfd → CanRun now rdy → Concerns m o → ∃ t ijt res,
        Says A B.raw o (A.mul c.rate g.cfd) t ∧
        reduceGoal A c now rdy K fresh B a sa g m = [.inject (.pred t [s] []) ijt res]) := by
  intro A c now rdy K fresh B a sa g m s hag
  constructor
  · intro hg
    refine ⟨?_, ?_, ?_, ?_, ?_⟩
    · intro h
      by_cases hi : A.mul c.rate g.cfd ≤ c.thr ∨ ¬ CanRun now rdy ∨ m = .no
      · exact reduce_idle A c now rdy K fresh B a sa g m hi
      · have h1 : c.thr < A.mul c.rate g.cfd := not_le.mp (fun h => hi (Or.inl h))
        have h2 : CanRun now rdy := not_not.mp (fun h => hi (Or.inr (Or.inl h)))
        have h3 : s.mode = .mandatory ∧ m = .notRhs := by
          rcases h with h | h | h | h
          · exact absurd (Or.inl h) hi
          · exact absurd (Or.inr (Or.inl h)) hi
          · exact absurd (Or.inr (Or.inr h)) hi
          · exact h
        rw [reduce_run A c now rdy K fresh B a sa g m true h1 (Or.inr ⟨rfl, h3.2⟩),
          abduce_sim A c now rdy K fresh B a sa g true _ s h2 hg, subSim_none.mpr ⟨h3.1, rfl⟩]
    · intro o hm e he
      by_cases hi : A.mul c.rate g.cfd ≤ c.thr ∨ ¬ CanRun now rdy ∨ m = .no
      · rw [reduce_idle A c now rdy K fresh B a sa g m hi] at he; simp at he
      · have h1 : c.thr < A.mul c.rate g.cfd := not_le.mp (fun h => hi (Or.inl h))
        have h2 : CanRun now rdy := not_not.mp (fun h => hi (Or.inr (Or.inl h)))
        by_cases hn : s.mode = .mandatory ∧ o = true
        · rw [reduce_run A c now rdy K fresh B a sa g m o h1 hm,
            abduce_sim A c now rdy K fresh B a sa g o _ s h2 hg, subSim_none.mpr hn] at he
          simp at he
        · obtain ⟨s', hs, hq, heq⟩ := reduce_sim A c now rdy K fresh B a sa g m s o hg h1 h2 hm hn
          rw [heq] at he
          refine simulate_cases A c now K fresh B a sa g o _ s' hs.mode.2
            (fun es => e ∈ es → Below A c now (A.mul c.rate g.cfd) g s o e) ?_ ?_ ?_ he
          · intro x he
            rcases List.mem_append.mp he with he | he
            · exact pursueSim_mem hs he
            · split_ifs at he
              · exact askInstSim_mem hs he
              · simp at he
          · intro x he; exact pursueSim_mem hs he
          · intro x he; exact askInstSim_mem hs.req he
    · intro o e l i t h1 h2 hm hn ho hl ht hk hf hcmd
      obtain ⟨s', hs, hq, heq⟩ := reduce_sim A c now rdy K fresh B a sa g m s o hg h1 h2 hm hn
      obtain ⟨es, hes, _⟩ := simulate_simOpen A c now K fresh B a sa g o (A.mul c.rate g.cfd) s' hs.mode.2 e ho
      rw [heq, hes, hl]
      rw [says_eq ht] at hk hf ⊢
      simp only [pursueSim, hk, hf, hcmd, if_true, injectSim]
      refine ⟨{ mode := s'.mode, thz := s'.thz, sup := g.id, opposite := o, root := s'.root
                sol := some c.id, solCfd := s'.solCfd, solBefore := s'.solBefore }, max now (s'.solBefore - s'.thz.tdiv 2), _,
        ⟨hs.root, rfl, hs.thz, rfl, hs.mode, rfl, hs.first, hs.later⟩, List.mem_append.mpr (Or.inl (List.mem_singleton.mpr rfl)),
        le_max_left _ _, le_max_right _ _, ?_⟩
      rcases max_choice now (s'.solBefore - s'.thz.tdiv 2) with h | h
      · exact Or.inl h
      · exact Or.inr h
    · intro o e l i t h1 h2 hm hn ho hl ht hk hf hcmd
      obtain ⟨s', hs, hq, heq⟩ := reduce_sim A c now rdy K fresh B a sa g m s o hg h1 h2 hm hn
      obtain ⟨es, hes, hnil⟩ := simulate_simOpen A c now K fresh B a sa g o (A.mul c.rate g.cfd) s' hs.mode.2 e ho
      rw [heq, hes, hl, hnil hcmd, List.append_nil]
      rw [says_eq ht] at hk hf ⊢
      simp only [pursueSim, hk, hf, hcmd, Bool.false_eq_true, if_false, injectSim]
      constructor
      · intro hfr; rw [if_neg (by simp [hfr])]
      · intro hfr; rw [if_pos hfr]; exact ⟨s', _, hs, rfl⟩
    · intro o h1 h2 hm hn h
      obtain ⟨s', hs, hq, heq⟩ := reduce_sim A c now rdy K fresh B a sa g m s o hg h1 h2 hm hn
      rw [heq]
      by_cases hoa : Open a
      · have hcmd : c.isCmd = true := by
          rcases h with h | h
          · exact absurd (Or.inl ⟨hoa, rfl⟩) (h a.loaded)
          · exact h.1
        refine ⟨none, instTarget A (B.inst none) (A.mul c.rate g.cfd), instTarget_instance _ _ _, ?_⟩
        rw [simulate_open A c now K fresh B a sa g o _ s' hs.mode.2 hoa, if_pos hcmd]
        by_cases hfr : fresh (instTarget A (B.inst none) (A.mul c.rate g.cfd)) = true
        · right
          refine ⟨s', Lifetime.goalRes c.ref c.upr now
            ((instTarget A (B.inst none) (A.mul c.rate g.cfd)).before - now), hs, ?_, ?_⟩ <;>
            simp [askInstSim, hq, hfr, injectSim]
        · left
          exact ⟨hoa, by simpa using hfr⟩
      · have hw : sa.r ≠ .weakEnabled := by
          intro hw
          rcases h with h | h
          · exact h sa.loaded (Or.inr ⟨hoa, hw, rfl⟩)
          · exact hoa h.2
        refine ⟨sa.loaded, instTarget A (B.inst sa.loaded) (A.mul c.rate g.cfd), instTarget_instance _ _ _, Or.inr ?_⟩
        rw [simulate_closed A c now K fresh B a sa g o _ s' hs.mode.2 hoa hw hag]
        refine ⟨{ s' with isReq := true }, Lifetime.goalRes c.ref c.upr now
          ((instTarget A (B.inst sa.loaded) (A.mul c.rate g.cfd)).before - now), hs.req, ?_, ?_⟩ <;>
          simp [askInstSim, injectSim]
  · intro hg o h1 h2 hm
    rw [reduce_run A c now rdy K fresh B a sa g m o h1 hm, abduce_end A c now rdy K fresh B a sa g o _ s h2 hg]
    exact ⟨_, _, _, target_says A B.raw o _, rfl⟩

/-- The left-hand side is known. -/
def Ex.known : Known := ⟨fun _ => some (3, true), fun _ => none⟩

/-- A simulated branch that finds the left-hand side to be known does nothing; at the end of a simulation the
left-hand side is predicted as it is before the guards are applied. -/
theorem C121_simulated_violated : ¬ C121_full ∧
    reduceGoal F32.exact plain 10 ready known (fun _ => true) binds yes no subGoal .rhs = [] ∧
    (∃ t ijt res, reduceGoal F32.exact plain 10 ready nothing (fun _ => true) binds yes no lastGoal .rhs =
      [.inject (.pred t [{ below with thz := 5 }] []) ijt res] ∧ t.obj = .thing 22) := by
  have h1 : reduceGoal F32.exact plain 10 ready known (fun _ => true) binds yes no subGoal .rhs = [] := by decide +kernel
  refine ⟨?_, h1, ⟨⟨.thing 22, true, 50, 100, 1⟩, 10, 90, by decide +kernel, rfl⟩⟩
  intro h
  have h2 := ((h F32.exact plain 10 ready known (fun _ => true) binds yes no subGoal .rhs below
    (fun h => by cases h)).1 ⟨rfl, by decide⟩).reported false (some req) ⟨20, true, 50, 100⟩ 30 _ (by decide +kernel)
      ⟨⟨100, rfl, by decide⟩, rfl⟩ (Or.inl ⟨rfl, Or.inl rfl⟩) (by simp) (Or.inl ⟨Or.inl rfl, rfl⟩) rfl
      (target_says _ _ _ _) (Or.inl (by simp [known]))
  rw [h1] at h2
  obtain ⟨_, _, _, h2⟩ := h2
  simp at h2

/-- A command is predicted and its instance asked for; another model's left-hand side becomes a goal; and an instance
is asked for when nothing allows the model. -/
theorem C121_nonvacuous : Simulated ctl simGoal sim ∧ Ends plain lastGoal { below with thz := 5 } ∧ Agree no no ∧
    (∃ s', SubSim F32.exact ctl 10 1 simGoal sim false s' ∧ ∃ t t' res res' res'',
      reduceGoal F32.exact ctl 10 ready nothing (fun _ => true) binds yes no simGoal .rhs =
        [.inject (.pred t [s'] []) 58 res, .watch .sr (.goal t' s' none) 0 105 none, .inject (.goal t' s' none) 10 res'] ∧
      res = 90 ∧ res'' = 0) ∧
    (∃ s' t res, reduceGoal F32.exact plain 10 ready nothing (fun _ => true) binds yes no subGoal .notRhs =
        [.watch .sg (.goal t s' none) 0 55 none, .inject (.goal t s' none) 10 res] ∧ s'.mode = .mandatory) := by
  refine ⟨⟨rfl, by decide⟩, ⟨rfl, by decide, by decide⟩, (fun h => by cases h), ?_, ?_⟩
  · refine ⟨{ mode := .optional, thz := 95, sup := 5, opposite := false, root := 9, sol := some 1, solCfd := 1, solBefore := 105 },
      ⟨rfl, rfl, by decide, rfl, by decide, rfl, fun _ => ⟨rfl, rfl⟩, fun h => absurd rfl h⟩,
      ⟨.thing 20, true, 50, 100, 1⟩, ⟨.inst 31 false, true, 0, 90, 1⟩, 90, 80, 0, by decide +kernel, rfl, rfl⟩
  · refine ⟨{ mode := .mandatory, thz := 45, sup := 5, opposite := true, root := 9, sol := some 2, solCfd := 1, solBefore := 80 },
      ⟨.thing 20, false, 50, 100, 1⟩, 90, by decide +kernel, rfl⟩

end Verif.Abduce
