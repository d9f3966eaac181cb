import Verif.Monitors.Model
import Mathlib.Data.List.Induction
import Mathlib.Tactic.SplitIfs
import Mathlib.Tactic.FinCases
import Mathlib.Logic.Basic
import Mathlib.Tactic.ByContra
/-!
# C48, C49: outcomes of monitors
-/
namespace Verif.Monitors
open Verif.Evidence (MatchResult)

theorem run_snoc (p : Params) (es : List Ev) (e : Ev) :
    run p (es ++ [e]) = step p (run p es) e := by simp [run]

theorem prun_snoc (p : PParams) (es : List PEv) (e : PEv) :
    prun p (es ++ [e]) = pstep p (prun p es) e := by simp [prun]

/-! ## Goals -/

/-- The target of the goal is reached by this event: an actual positive evidence, or a requirement
that turns out to be met. -/
def Reaches (p : Params) : Ev → Prop
  | .input _ (.actual false .positive _) => p.kind = .goal
  | .signal _ false true => p.kind = .req
  | _ => False

/-- C48 in full, for any number of cores reading and acting in any order: at most one outcome,
successes on evidence and no later than the deadline, failures on counter-evidence or at the
deadline, exactly one outcome once the timers are done, and a success if the target was reached
while the goal was being watched. -/
def C48_full : Prop :=
  ∀ (p : Params), 0 < p.deadline →
    (∀ ph : List Phase,
      (fine p ph).outs.length ≤ 1 ∧
      (∀ r ∈ (fine p ph).outs, r.success = true → r.evidence = true ∧ r.time ≤ p.deadline) ∧
      (∀ r ∈ (fine p ph).outs, r.success = false → r.evidence = true ∨ p.deadline ≤ r.time) ∧
      ((fine p ph).jobs = [] → (fine p ph).outs.length = 1)) ∧
    (∀ (es : List Ev) (e : Ev) (es' : List Ev), (run p es).inv = false → (run p es).listed = true →
      (run p es).clock + e.dt < p.deadline → Reaches p e →
      ∀ r ∈ (run p (es ++ e :: es')).outs, r.success = true)

/-- A goal watched from time 0 to time 10, without simulation. -/
def g10 : Params := ⟨.goal, 10, 0, 0, false, none⟩
/-- A goal against something. -/
def a10 : Params := { g10 with antiTarget := true }
/-- A requirement. -/
def r10 : Params := { g10 with kind := .req }

/-- Six ways in which the monitors break the rule. -/
theorem C48_outcomes_violated :
    ¬ C48_full ∧
    -- a core with an evidence and a core with the timer both see a valid goal: success and failure
    (fine g10 [.look 0, .look 1, .act 0 (.input 10 (.actual false .positive true)),
      .act 1 (.fire 0 0)]).outs = [⟨false, 10, false⟩, ⟨true, 10, true⟩] ∧
    -- a predicted success silences the monitor: the failure of the prediction is never noticed
    (let s := run g10 [.input 1 (.predicted none .positive 1), .input 1 (.actual false .negative true),
      .fire 20 0]
     s.outs = [] ∧ s.jobs = [] ∧ s.listed = false) ∧
    -- the input that comes first after a predicted evidence was refuted is dropped, even the target
    (run { g10 with predicted := some 1 } [.refute 1, .input 1 (.actual false .positive true),
      .fire 8 0]).outs = [⟨false, 10, false⟩] ∧
    -- a requirement that was met is a failure at the deadline
    (run r10 [.signal 1 false true, .fire 9 0, .fire 0 0]).outs = [⟨false, 10, false⟩] ∧
    -- the opposite of an unwanted fact observed and nobody else reacting: also a failure
    (run a10 [.input 1 (.actual false .positive true), .fire 9 0]).outs = [⟨false, 10, false⟩] ∧
    -- a late timer lets an evidence count after the deadline
    (run g10 [.input 15 (.actual false .positive true)]).outs = [⟨true, 15, true⟩] := by
  refine ⟨fun h => ?_, by decide, by decide, by decide, by decide, by decide, by decide⟩
  have := ((h g10 (by decide)).1 [.look 0, .look 1, .act 0 (.input 10 (.actual false .positive true)),
    .act 1 (.fire 0 0)]).1
  exact absurd this (by decide)

/-- Every clause of `C48_full` fails on its own. -/
theorem C48_each_clause_violated :
    (∃ ph, 1 < (fine g10 ph).outs.length) ∧
    (∃ ph, ∃ r ∈ (fine g10 ph).outs, r.success = true ∧ g10.deadline < r.time) ∧
    (∃ ph, (fine g10 ph).jobs = [] ∧ (fine g10 ph).outs.length = 0) ∧
    (∃ es e es', (run r10 es).inv = false ∧ (run r10 es).listed = true ∧
      (run r10 es).clock + e.dt < r10.deadline ∧ Reaches r10 e ∧
      ∃ r ∈ (run r10 (es ++ e :: es')).outs, r.success = false) := by
  refine ⟨⟨[.look 0, .look 1, .act 0 (.input 10 (.actual false .positive true)),
    .act 1 (.fire 0 0)], by decide⟩,
    ⟨[.act 0 (.input 15 (.actual false .positive true))], ⟨true, 15, true⟩, by decide, by decide,
      by decide⟩,
    ⟨[.act 0 (.input 1 (.predicted none .positive 1)), .look 0, .act 0 (.fire 20 0)], by decide,
      by decide⟩,
    ⟨[], .signal 1 false true, [.fire 9 0, .fire 0 0], by decide, by decide, by decide, rfl,
      ⟨false, 10, false⟩, by decide, by decide⟩⟩

/-- Reading and acting at once is running the events one after the other. -/
theorem fine_interleave (p : Params) (es : List Ev) : fine p (interleave es) = run p es := by
  have key : ∀ (es : List Ev) (c : State × (Nat → Bool)),
      ((interleave es).foldl (fineStep p) c).1 = es.foldl (step p) c.1 := by
    intro es
    induction es with
    | nil => intro c; rfl
    | cons e es ih =>
      intro c
      simp only [interleave, List.flatMap_cons, List.cons_append, List.nil_append,
        List.foldl_cons] at ih ⊢
      rw [ih]
      simp [fineStep, step]
  exact key es _

/-! ### What one uninterrupted event does -/

/-- No event changes anything once the goal is invalidated, except the clock, the lists and the
switch. -/
theorem step_inv (p : Params) (s : State) (e : Ev) (h : s.inv = true) :
    (step p s e).inv = true ∧ (step p s e).outs = s.outs ∧ (step p s e).fresh = s.fresh := by
  cases e <;> simp only [step, act, reduce, signal, update, h] <;> (repeat' split) <;> simp_all

/-- An event adds at most one outcome and then the goal is invalidated. -/
theorem step_outs (p : Params) (s : State) (e : Ev) :
    (step p s e).outs = s.outs ∨
    ((step p s e).inv = true ∧ s.inv = false ∧
      ∃ r, (step p s e).outs = r :: s.outs ∧ r.time = s.clock + e.dt ∧
      ((p.kind = .goal ∧ r = ⟨true, s.clock + e.dt, true⟩ ∧ s.listed = true ∧
          ∃ d f, e = .input d (.actual false .positive f) ∧ (f && p.antiTarget) = false) ∨
       (p.kind = .goal ∧ r = ⟨false, s.clock + e.dt, true⟩ ∧ s.listed = true ∧
          ∃ d f, e = .input d (.actual false .negative f)) ∨
       (r = ⟨false, s.clock + e.dt, false⟩ ∧ s.ctl = true ∧ s.simulating = false ∧
          ∃ d k j, e = .fire d k ∧ s.jobs[k]? = some j ∧ j ≤ s.clock + d))) := by
  by_cases h : s.inv = true
  · exact Or.inl (step_inv p s e h).2.1
  have h' : s.inv = false := by simpa using h
  cases e with
  | input d i =>
    have e0 : step p s (.input d i) =
        if p.kind = .goal ∧ s.listed = true then
          (fun r : State × Bool => { r.1 with listed := !r.2 })
            (reduce p false { s with clock := s.clock + d } i)
        else { s with clock := s.clock + d } := by
      simp only [step, act, h', Ev.dt]
    rw [e0]
    by_cases hk : p.kind = .goal ∧ s.listed = true
    · rw [if_pos hk]
      simp only [reduce, Bool.false_eq_true, if_false]
      by_cases hm : misled { s with clock := s.clock + d } = true
      · left
        simp only [hm, if_true, registerPredicted]
        split_ifs <;> simp_all
      · simp only [hm, if_false]
        cases i with
        | predicted sim ev cfd =>
          left
          cases ev <;> cases s.simulating <;> cases s.injected <;>
            simp [reducePredicted, registerPredicted] <;> split_ifs <;> simp
        | actual g ev f =>
          cases g <;> cases ev <;> simp [reduceActual, register, hk, h', Ev.dt]
          by_cases hf : f = true ∧ p.antiTarget = true
          · left; simp [hf]
          · right
            simp only [hf, if_false]
            simp
            cases f <;> simp_all
    · rw [if_neg hk]; left; rfl
  | signal d sim ok =>
    left
    simp only [step, act, h', signal, Ev.dt]
    split_ifs <;> simp
  | fire d k =>
    simp only [step, act, h', update, Ev.dt]
    cases hj : s.jobs[k]? with
    | none => left; rfl
    | some j =>
      by_cases hc : s.clock + d < j
      · left; simp [hc]
      · by_cases hp : s.ctl = true
        · by_cases hsim : s.simulating = true
          · left; simp [hc, hp, hsim]; split_ifs <;> rfl
          · right
            have hsim' : s.simulating = false := by simpa using hsim
            simp [hc, hp, hsim', register, hj]
            omega
        · left
          have hp' : s.ctl = false := by simpa using hp
          simp [hc, hp']
  | gone d => left; rfl
  | power d on => left; rfl
  | refute d => left; rfl

/-- An event that can end the watch without an outcome: the goal is invalidated by somebody else, the
controller is switched off, a prediction of success, or a refuted ground. -/
def Silencing : Ev → Prop
  | .gone _ => True
  | .power _ on => on = false
  | .input _ (.predicted _ .positive _) => True
  | .input _ (.actual true _ _) => True
  | _ => False

/-- The controller is switched off. -/
def SwitchOff : Ev → Prop
  | .power _ on => on = false
  | _ => False

theorem registerPredicted_frame (s : State) (a b : Bool) :
    (registerPredicted s a b).clock = s.clock ∧ (registerPredicted s a b).ctl = s.ctl ∧
    (registerPredicted s a b).jobs = s.jobs ∧
    (registerPredicted s a b).simulating = s.simulating := by
  simp only [registerPredicted]; split_ifs <;> exact ⟨rfl, rfl, rfl, rfl⟩

/-- A reduction leaves the clock, the switch, the jobs and the simulation alone. -/
theorem reduce_frame (p : Params) (saw : Bool) (s : State) (i : Inp) :
    (reduce p saw s i).1.clock = s.clock ∧ (reduce p saw s i).1.ctl = s.ctl ∧
    (reduce p saw s i).1.jobs = s.jobs ∧ (reduce p saw s i).1.simulating = s.simulating := by
  have hr := registerPredicted_frame
  simp only [reduce]
  by_cases hs : saw = true
  · simp [hs]
  by_cases hm : misled s = true
  · simp [hs, hm, hr]
  simp only [hs, hm, if_false]
  cases i with
  | predicted sim ev cfd =>
    by_cases hsim : s.simulating = true
    · simp [hsim]
    · cases ev
      · by_cases hi : s.injected = true <;> simp [hsim, hi, reducePredicted, hr]
      · simp [hsim, reducePredicted, hr]
      · simp [hsim, reducePredicted]
  | actual g ev f =>
    by_cases hf : f = true ∧ p.antiTarget = true <;>
      cases g <;> cases ev <;> simp [reduceActual, register, hf]

theorem step_clock (p : Params) (s : State) (e : Ev) : (step p s e).clock = s.clock + e.dt := by
  cases e with
  | input d i =>
    simp only [step, act]
    split_ifs
    · simp [reduce_frame]
    · rfl
  | signal d sim ok => simp only [step, act, signal]; split_ifs <;> rfl
  | fire d k =>
    simp only [step, act, update]
    split
    · rfl
    · split_ifs <;> rfl
  | gone d => rfl
  | power d on => rfl
  | refute d => rfl

/-- Only the timer touches the jobs and the end of the simulation. -/
theorem step_jobs (p : Params) (s : State) (e : Ev) (h : ∀ d k, e ≠ .fire d k) :
    (step p s e).jobs = s.jobs ∧ (step p s e).simulating = s.simulating := by
  cases e with
  | input d i =>
    simp only [step, act]
    split_ifs
    · simp [reduce_frame]
    · exact ⟨rfl, rfl⟩
  | signal d sim ok => simp only [step, act, signal]; split_ifs <;> exact ⟨rfl, rfl⟩
  | fire d k => exact absurd rfl (h d k)
  | gone d => exact ⟨rfl, rfl⟩
  | power d on => exact ⟨rfl, rfl⟩
  | refute d => exact ⟨rfl, rfl⟩

theorem step_ctl (p : Params) (s : State) (e : Ev) (h : ¬ SwitchOff e) (hc : s.ctl = true) :
    (step p s e).ctl = true := by
  cases e with
  | input d i =>
    simp only [step, act]
    split_ifs
    · simp [reduce_frame, hc]
    · exact hc
  | signal d sim ok => simp only [step, act, signal]; split_ifs <;> exact hc
  | fire d k =>
    simp only [step, act, update]
    split
    · exact hc
    · split_ifs <;> exact hc
  | gone d => exact hc
  | power d on => simpa [SwitchOff, step, act] using h
  | refute d => exact hc

/-- What the timer does when the goal is valid and the controller is on. -/
theorem step_fire (p : Params) (s : State) (d k : Nat) (hi : s.inv = false) (hc : s.ctl = true) :
    (step p s (.fire d k) = { s with clock := s.clock + d } ∧
      ∀ j, s.jobs[k]? = some j → s.clock + d < j) ∨
    (∃ j, s.jobs[k]? = some j ∧ j ≤ s.clock + d ∧
      ((s.simulating = true ∧ (step p s (.fire d k)).simulating = false ∧
        (step p s (.fire d k)).inv = false ∧
        (step p s (.fire d k)).jobs =
          s.jobs.eraseIdx k ++ if p.deadline = 0 then [] else [p.deadline]) ∨
       (s.simulating = false ∧ (step p s (.fire d k)).simulating = false ∧
        (step p s (.fire d k)).inv = true ∧ (step p s (.fire d k)).jobs = s.jobs.eraseIdx k))) := by
  simp only [step, act, hi, Ev.dt]
  cases hj : s.jobs[k]? with
  | none => left; simp [hi]
  | some j =>
    by_cases hlt : s.clock + d < j
    · left; simp [hlt, hi]
    · right
      refine ⟨j, rfl, by omega, ?_⟩
      by_cases hs : s.simulating = true
      · left
        by_cases hd : p.deadline = 0 <;> simp [hlt, hc, update, hs, hd, hi]
      · right
        simp [hlt, hc, update, hs, register]

/-- The timer when the goal is gone or the controller off: the jobs only get fewer. -/
theorem step_fire_dead (p : Params) (s : State) (d k : Nat) (h : s.inv = true ∨ s.ctl = false) :
    (step p s (.fire d k)).simulating = s.simulating ∧
    ((step p s (.fire d k)).jobs = s.jobs ∨ (step p s (.fire d k)).jobs = s.jobs.eraseIdx k) := by
  have hb : (!s.ctl || s.inv) = true := by rcases h with h | h <;> simp [h]
  simp only [step, act, Ev.dt]
  cases hj : s.jobs[k]? with
  | none => simp
  | some j =>
    by_cases hlt : s.clock + d < j
    · simp [hlt]
    · simp only [hlt, if_false, hb, if_true]; simp

/-- What invalidates the goal. -/
theorem step_quiet (p : Params) (s : State) (e : Ev) (h : ¬ Silencing e) (hi : s.inv = false)
    (hn : (step p s e).inv = true) : (step p s e).outs ≠ s.outs := by
  cases e with
  | input d i =>
    revert hn
    have e0 : step p s (.input d i) =
        if p.kind = .goal ∧ s.listed = true then
          (fun r : State × Bool => { r.1 with listed := !r.2 })
            (reduce p false { s with clock := s.clock + d } i)
        else { s with clock := s.clock + d } := by
      simp only [step, act, hi, Ev.dt]
    rw [e0]
    by_cases hk : p.kind = .goal ∧ s.listed = true
    · rw [if_pos hk]
      simp only [reduce, Bool.false_eq_true, if_false]
      by_cases hm : misled { s with clock := s.clock + d } = true
      · simp only [hm, if_true]
        by_cases hi' : s.injected = true <;> simp [registerPredicted, hi', hi]
      · simp only [hm, if_false]
        cases i with
        | predicted sim ev cfd =>
          cases ev
          · exact absurd trivial h
          · by_cases hs : s.simulating = true <;> by_cases hi' : s.injected = true <;>
              simp [reducePredicted, registerPredicted, hs, hi', hi]
          · by_cases hs : s.simulating = true <;> simp [reducePredicted, hs, hi]
        | actual g ev f =>
          cases g
          · by_cases hf : f = true ∧ p.antiTarget = true <;> cases ev <;>
              simp [reduceActual, register, hi, hf]
          · exact absurd trivial h
    · rw [if_neg hk]; simp [hi]
  | signal d sim ok => revert hn; simp only [step, act, signal, hi]; split_ifs <;> simp [hi]
  | fire d k =>
    by_cases hc : s.ctl = true
    · rcases step_outs p s (.fire d k) with ho | ⟨_, _, r, ho, _⟩
      · intro _
        rcases step_fire p s d k hi hc with ⟨e, _⟩ | ⟨j, hj, hle, ⟨_, _, hinv, _⟩ | ⟨hs, _, _, _⟩⟩
        · rw [e] at hn; simp [hi] at hn
        · rw [hinv] at hn; exact absurd hn (by simp)
        · revert ho
          simp only [step, act, hi, hj, Ev.dt]
          have : ¬ s.clock + d < j := by omega
          simp [this, hc, update, hs, register]
      · rw [ho]; simp
    · exfalso
      revert hn
      have hc' : s.ctl = false := by simpa using hc
      simp only [step, act, hi, hc']
      split
      · simp [hi]
      · split_ifs <;> simp_all
  | gone d => exact absurd trivial h
  | power d on => simp [step, act, hi] at hn
  | refute d => simp [step, act, hi] at hn

/-! ### Whole executions -/

/-- At most one outcome, and then the goal is invalidated. -/
theorem run_once (p : Params) (es : List Ev) :
    (run p es).outs = [] ∨ ((run p es).inv = true ∧ (run p es).outs.length = 1) := by
  induction es using List.reverseRecOn with
  | nil => exact Or.inl rfl
  | append_singleton es e ih =>
    rw [run_snoc]
    rcases step_outs p (run p es) e with h | ⟨hi, hn, r, h, _⟩
    · rw [h]
      rcases ih with ih | ⟨ih, il⟩
      · exact Or.inl ih
      · exact Or.inr ⟨(step_inv p _ e ih).1, il⟩
    · right
      refine ⟨hi, ?_⟩
      rcases ih with ih | ⟨ih, _⟩
      · rw [h, ih]; rfl
      · rw [ih] at hn; exact absurd hn (by simp)

/-- Jobs and deadline: while simulating at most one job is early; afterwards none is, unless the
deadline has passed. -/
theorem run_jobs (p : Params) (es : List Ev) :
    ((run p es).simulating = true → (run p es).jobs.countP (fun j => decide (j < p.deadline)) ≤ 1) ∧
    ((run p es).simulating = false →
      (run p es).jobs.countP (fun j => decide (j < p.deadline)) = 0 ∨
        p.deadline ≤ (run p es).clock) := by
  induction es using List.reverseRecOn with
  | nil =>
    constructor
    · intro h
      have hb : p.birth < p.simThz := by simpa [run, init] using h
      cases hk : p.kind <;> simp [run, init, hb, hk, List.countP_cons] <;> split_ifs <;> simp
    · intro h
      have hb : ¬ p.birth < p.simThz := by simpa [run, init] using h
      left
      cases hk : p.kind <;> simp [run, init, hb, hk]
  | append_singleton es e ih =>
    rw [run_snoc]
    generalize run p es = s at ih
    have hcl := step_clock p s e
    by_cases hf : ∀ d k, e ≠ .fire d k
    · obtain ⟨hj, hs⟩ := step_jobs p s e hf
      rw [hj, hs, hcl]
      exact ⟨ih.1, fun h => (ih.2 h).imp id (fun x => by omega)⟩
    · simp only [not_forall, not_not] at hf
      obtain ⟨d, k, rfl⟩ := hf
      have herase : ∀ k, (s.jobs.eraseIdx k).countP (fun j => decide (j < p.deadline)) ≤
          s.jobs.countP (fun j => decide (j < p.deadline)) :=
        fun k => (List.eraseIdx_sublist ..).countP_le
      by_cases hd : s.inv = true ∨ s.ctl = false
      · obtain ⟨hs, hj⟩ := step_fire_dead p s d k hd
        rw [hs, hcl]
        have hle : (step p s (.fire d k)).jobs.countP (fun j => decide (j < p.deadline)) ≤
            s.jobs.countP (fun j => decide (j < p.deadline)) := by
          rcases hj with hj | hj <;> rw [hj]
          exact herase k
        exact ⟨fun h => le_trans hle (ih.1 h),
          fun h => (ih.2 h).imp (fun x => by omega) (fun x => by omega)⟩
      · have hi : s.inv = false := by simpa using fun h => hd (Or.inl h)
        have hc : s.ctl = true := by simpa using fun h => hd (Or.inr h)
        rcases step_fire p s d k hi hc with ⟨e, _⟩ | ⟨j, hj, hle, ⟨hs, h1, _, hjobs⟩ | ⟨hs, h1, _, hjobs⟩⟩
        · rw [e]
          exact ⟨ih.1, fun h => (ih.2 h).imp id (fun x => Nat.le_trans x (Nat.le_add_right _ _))⟩
        · rw [h1, hjobs, hcl]
          refine ⟨by simp, fun _ => ?_⟩
          by_cases hjd : j < p.deadline
          · left
            obtain ⟨hk, hj'⟩ := List.getElem?_eq_some_iff.1 hj
            have hperm := (List.getElem_cons_eraseIdx_perm hk).countP_eq
              (fun j => decide (j < p.deadline))
            rw [hj', List.countP_cons_of_pos (by simpa using hjd)] at hperm
            have := ih.1 hs
            rw [List.countP_append]
            have h0 : (s.jobs.eraseIdx k).countP (fun j => decide (j < p.deadline)) = 0 := by omega
            rw [h0]
            split_ifs <;> simp
          · right; simp only [Ev.dt]; omega
        · rw [h1, hjobs, hcl]
          refine ⟨by simp, fun _ => ?_⟩
          rcases ih.2 hs with h0 | h0
          · left; have := herase k; omega
          · right; omega

/-- With the controller on, a valid goal keeps a job. -/
theorem run_watched (p : Params) (hd : 0 < p.deadline) (es : List Ev)
    (hq : ∀ e ∈ es, ¬ SwitchOff e) :
    (run p es).ctl = true ∧ ((run p es).inv = false → (run p es).jobs ≠ []) := by
  induction es using List.reverseRecOn with
  | nil => refine ⟨rfl, fun _ => ?_⟩; cases hk : p.kind <;> simp [run, init, hk]
  | append_singleton es e ih =>
    rw [run_snoc]
    have ih' := ih fun x hx => hq x (by simp [hx])
    have he := hq e (by simp)
    generalize run p es = s at ih'
    refine ⟨step_ctl p s e he ih'.1, fun hi => ?_⟩
    have hi0 : s.inv = false := by
      by_contra hc
      have := (step_inv p s e (by simpa using hc)).1
      rw [this] at hi; exact absurd hi (by simp)
    by_cases hf : ∀ d k, e ≠ .fire d k
    · rw [(step_jobs p s e hf).1]; exact ih'.2 hi0
    · simp only [not_forall, not_not] at hf
      obtain ⟨d, k, rfl⟩ := hf
      rcases step_fire p s d k hi0 ih'.1 with ⟨e, _⟩ | ⟨j, hj, hle, ⟨_, _, _, hjobs⟩ | ⟨_, _, hinv, _⟩⟩
      · rw [e]; exact ih'.2 hi0
      · rw [hjobs, if_neg (by omega)]; simp
      · rw [hinv] at hi; exact absurd hi (by simp)

/-- Timers are not late: nothing else happens after the time of a pending job. -/
def Punctual (p : Params) (es : List Ev) : Prop :=
  ∀ es1 e es2, es = es1 ++ e :: es2 → (∀ d k, e ≠ .fire d k) →
    ∀ j ∈ (run p es1).jobs, (run p es1).clock + e.dt ≤ j

/-- If the simulation ends by the deadline, all jobs are due by the deadline. -/
theorem run_due (p : Params) (hs : p.simThz ≤ p.deadline) (es : List Ev) :
    ∀ j ∈ (run p es).jobs, j ≤ p.deadline := by
  induction es using List.reverseRecOn with
  | nil =>
    intro j hj
    by_cases hb : p.birth < p.simThz <;> cases hk : p.kind <;> simp [run, init, hk, hb] at hj <;> omega
  | append_singleton es e ih =>
    rw [run_snoc]
    generalize run p es = s at ih
    by_cases hf : ∀ d k, e ≠ .fire d k
    · rw [(step_jobs p s e hf).1]; exact ih
    · simp only [not_forall, not_not] at hf
      obtain ⟨d, k, rfl⟩ := hf
      have her : ∀ j ∈ s.jobs.eraseIdx k, j ≤ p.deadline :=
        fun j hj => ih j (List.mem_of_mem_eraseIdx hj)
      by_cases hd : s.inv = true ∨ s.ctl = false
      · obtain ⟨_, hj | hj⟩ := step_fire_dead p s d k hd <;> rw [hj]
        · exact ih
        · exact her
      · have hi : s.inv = false := by simpa using fun h => hd (Or.inl h)
        have hc : s.ctl = true := by simpa using fun h => hd (Or.inr h)
        rcases step_fire p s d k hi hc with ⟨e, _⟩ | ⟨j, hj, hle, ⟨_, _, _, hjobs⟩ | ⟨_, _, _, hjobs⟩⟩
        · rw [e]; exact ih
        · rw [hjobs]
          intro j hj
          rcases List.mem_append.1 hj with hj | hj
          · exact her j hj
          · split_ifs at hj <;> simp at hj; omega
        · rw [hjobs]; exact her

/-- C48 for events that are not interrupted. At most one outcome is registered, and then the goal is
invalidated. A success comes from an actual positive evidence for a goal that was being watched; a
failure comes from an actual counter-evidence, or from the timer no earlier than the deadline. With
timers that are not late and a controller that stays on, a success is not late either. If nothing
silences the monitor there is exactly one outcome once the jobs are done. An actual positive evidence
for a watched goal, not being about an unwanted fact, is a success whatever follows.

Missing: two cores at once (both can report), events that silence the monitor (no outcome at all),
the requirement monitors and the goals against facts (failure although the target was reached), and
the input that is dropped right after a predicted evidence was refuted. -/
theorem C48_outcomes_partial (p : Params) (hd : 0 < p.deadline) (es : List Ev) :
    (fine p (interleave es)).outs.length ≤ 1 ∧
    ((fine p (interleave es)).outs.length = 1 → (fine p (interleave es)).inv = true) ∧
    (∀ e, (run p (es ++ [e])).outs ≠ (run p es).outs →
      ∃ r, (run p (es ++ [e])).outs = [r] ∧ r.time = (run p (es ++ [e])).clock ∧
        ((r.success = true ∧ p.kind = .goal ∧
            ∃ d f, e = .input d (.actual false .positive f) ∧ ¬ (f = true ∧ p.antiTarget = true)) ∨
         (r.success = false ∧ ∃ d f, e = .input d (.actual false .negative f)) ∨
         (r.success = false ∧ p.deadline ≤ r.time ∧ ∃ d k, e = .fire d k))) ∧
    (p.simThz ≤ p.deadline → Punctual p es → (∀ e ∈ es, ¬ SwitchOff e) →
      ∀ r ∈ (run p es).outs, r.success = true → r.time ≤ p.deadline) ∧
    ((∀ e ∈ es, ¬ Silencing e) → (run p es).jobs = [] → (run p es).outs.length = 1) ∧
    (p.kind = .goal → (run p es).inv = false → (run p es).listed = true →
      misled (run p es) = false →
      ∀ d f es', ¬ (f = true ∧ p.antiTarget = true) →
      (run p (es ++ .input d (.actual false .positive f) :: es')).outs =
        [⟨true, (run p es).clock + d, true⟩]) := by
  rw [fine_interleave]
  have honce := run_once p es
  refine ⟨?_, ?_, ?_, ?_, ?_, ?_⟩
  · rcases honce with h | ⟨_, h⟩ <;> rw [h] <;> simp
  · intro h
    rcases honce with h0 | ⟨hi, _⟩
    · rw [h0] at h; exact absurd h (by simp)
    · exact hi
  · intro e hne
    have hcl := step_clock p (run p es) e
    rw [run_snoc] at hne ⊢
    rcases step_outs p (run p es) e with h | ⟨_, hn, r, h, ht, hc⟩
    · exact absurd h hne
    · have h0 : (run p es).outs = [] := by
        rcases honce with h0 | ⟨hi, _⟩
        · exact h0
        · rw [hi] at hn; exact absurd hn (by simp)
      refine ⟨r, by rw [h, h0], by rw [ht, hcl], ?_⟩
      rcases hc with ⟨hk, hr, _, d, f, he, hf⟩ | ⟨_, hr, _, d, f, he⟩ | ⟨hr, _, hs, d, k, j, he, hj, hle⟩
      · exact Or.inl ⟨by rw [hr], hk, d, f, he, by
          rintro ⟨h1, h2⟩; simp [h1, h2] at hf⟩
      · exact Or.inr (Or.inl ⟨by rw [hr], d, f, he⟩)
      · refine Or.inr (Or.inr ⟨by rw [hr], ?_, d, k, he⟩)
        rw [ht]
        subst he
        rcases (run_jobs p es).2 hs with h0 | h0
        · have := (List.countP_eq_zero.1 h0) j (List.mem_of_getElem? hj)
          simp only [decide_eq_true_eq, not_lt] at this
          simp only [Ev.dt]; omega
        · omega
  · intro hs
    clear honce
    induction es using List.reverseRecOn with
    | nil => intro _ _ r hr; simp [run, init] at hr
    | append_singleton es e ih =>
      intro hp hq r hr hsucc
      have hp' : Punctual p es := fun es1 e1 es2 h => hp es1 e1 (es2 ++ [e]) (by rw [h]; simp)
      have hq' : ∀ x ∈ es, ¬ SwitchOff x := fun x hx => hq x (by simp [hx])
      rw [run_snoc] at hr
      rcases step_outs p (run p es) e with h | ⟨_, hn, r', h, ht, hc⟩
      · rw [h] at hr; exact ih hp' hq' r hr hsucc
      · rw [h] at hr
        rcases List.mem_cons.1 hr with rfl | hr
        · rcases hc with ⟨hk, hr, _, d, f, he, hf⟩ | ⟨_, hr, _⟩ | ⟨hr, _⟩
          · have hw := (run_watched p hd es hq').2 hn
            obtain ⟨j, hj⟩ := List.exists_mem_of_ne_nil _ hw
            have h1 := hp es e [] rfl (by rw [he]; simp) j hj
            have h2 := run_due p hs es j hj
            omega
          · rw [hr] at hsucc; exact absurd hsucc (by simp)
          · rw [hr] at hsucc; exact absurd hsucc (by simp)
        · exact ih hp' hq' r hr hsucc
  · intro hq hj
    have hoff : ∀ e ∈ es, ¬ SwitchOff e := by
      intro e he hs
      apply hq e he
      cases e <;> simp_all [SwitchOff, Silencing]
    have hinv : (run p es).inv = true := by
      by_contra h
      exact (run_watched p hd es hoff).2 (by simpa using h) hj
    have key : (run p es).inv = true → (run p es).outs ≠ [] := by
      clear hj hinv hoff honce
      induction es using List.reverseRecOn with
      | nil => intro h; simp [run, init] at h
      | append_singleton es e ih =>
        intro hi
        rw [run_snoc] at hi ⊢
        have ih' := ih fun x hx => hq x (by simp [hx])
        by_cases h0 : (run p es).inv = true
        · rw [(step_inv p _ e h0).2.1]; exact ih' h0
        · have hne := step_quiet p (run p es) e (hq e (by simp)) (by simpa using h0) hi
          rcases step_outs p (run p es) e with h | ⟨_, _, r, h, _⟩
          · exact absurd h hne
          · rw [h]; simp
    rcases honce with h | ⟨_, h⟩
    · exact absurd h (key hinv)
    · exact h
  · intro hk hi hl hm d f es' hf
    have h0 : (run p es).outs = [] := by
      rcases honce with h | ⟨h, _⟩
      · exact h
      · rw [h] at hi; exact absurd hi (by simp)
    have hstep : (step p (run p es) (.input d (.actual false .positive f))).outs =
        [⟨true, (run p es).clock + d, true⟩] ∧
        (step p (run p es) (.input d (.actual false .positive f))).inv = true := by
      have hm' : misled { run p es with clock := (run p es).clock + d } = false := hm
      have hf' : (f && p.antiTarget) = false := by
        cases f <;> cases h : p.antiTarget <;> simp_all
      have hb : p.kind = .goal ∧ (run p es).listed = true := ⟨hk, hl⟩
      simp only [step, act, hi, Ev.dt, if_pos hb, reduce, Bool.false_eq_true, if_false]
      simp only [hi] at hm'
      simp only [hm', Bool.false_eq_true, if_false]
      simp [reduceActual, hf', register, h0]
    have htail : ∀ (es' : List Ev) (s : State), s.inv = true →
        (es'.foldl (step p) s).outs = s.outs := by
      intro es'
      induction es' with
      | nil => intro s _; rfl
      | cons e es' ih =>
        intro s hs
        rw [List.foldl_cons, ih _ (step_inv p s e hs).1, (step_inv p s e hs).2.1]
    have : run p (es ++ .input d (.actual false .positive f) :: es') =
        es'.foldl (step p) (step p (run p es) (.input d (.actual false .positive f))) := by
      simp [run]
    rw [this, htail es' _ hstep.2, hstep.1]

/-- A predicted failure after a predicted success never brings a new goal: the branch of
`register_predicted_goal_outcome` that makes one (mdl_controller.cpp:1222-1235) is dead code for
uninterrupted events. -/
theorem C48_second_chance_is_dead (p : Params) (es : List Ev) : (run p es).fresh = 0 := by
  induction es using List.reverseRecOn with
  | nil => rfl
  | append_singleton es e ih =>
    rw [run_snoc]
    generalize run p es = s at ih
    by_cases h : s.inv = true
    · rw [(step_inv p s e h).2.2, ih]
    have hi : s.inv = false := by simpa using h
    cases e with
    | input d i =>
      have e0 : step p s (.input d i) =
          if p.kind = .goal ∧ s.listed = true then
            (fun r : State × Bool => { r.1 with listed := !r.2 })
              (reduce p false { s with clock := s.clock + d } i)
          else { s with clock := s.clock + d } := by
        simp only [step, act, hi, Ev.dt]
      rw [e0]
      by_cases hk : p.kind = .goal ∧ s.listed = true
      · rw [if_pos hk]
        simp only [reduce, Bool.false_eq_true, if_false]
        by_cases hm : misled { s with clock := s.clock + d } = true
        · simp only [hm, if_true]
          by_cases hi' : s.injected = true <;> simp [registerPredicted, hi', hi, ih]
        · simp only [hm, if_false]
          cases i with
          | predicted sim ev cfd =>
            by_cases hs : s.simulating = true <;> by_cases hi' : s.injected = true <;> cases ev <;>
              simp [reducePredicted, registerPredicted, hs, hi', hi, ih]
          | actual g ev f =>
            by_cases hf : f = true ∧ p.antiTarget = true <;> cases g <;> cases ev <;>
              simp [reduceActual, register, ih, hf]
      · rw [if_neg hk]; exact ih
    | signal d sim ok => simp only [step, act, signal]; split_ifs <;> exact ih
    | fire d k =>
      simp only [step, act, update]
      split
      · exact ih
      · split_ifs <;> simp [register, ih]
    | gone d => exact ih
    | power d on => exact ih
    | refute d => exact ih

/-- The clauses of `C48_outcomes_partial` apply to real executions: a simulated goal that times out,
one that is reached in time, one that is refuted, and a requirement that times out with two jobs. -/
theorem C48_nonvacuous :
    (let p : Params := ⟨.goal, 10, 4, 0, false, none⟩
     let es : List Ev := [.input 1 (.predicted (some .object) .negative 1), .fire 3 0, .fire 6 0]
     (run p es).outs = [⟨false, 10, false⟩] ∧ (run p es).jobs = [] ∧ (∀ e ∈ es, ¬ Silencing e)) ∧
    (let p : Params := ⟨.goal, 10, 4, 0, false, some 3⟩
     (run p [.refute 1, .input 1 (.actual false .failure true), .input 1 (.actual false .positive true),
       .fire 9 0]).outs = [⟨true, 3, true⟩]) ∧
    (run g10 [.input 2 (.actual false .negative false)]).outs = [⟨false, 2, true⟩] ∧
    (run r10 [.signal 1 false false, .fire 9 1, .fire 0 0]).outs = [⟨false, 10, false⟩] := by
  refine ⟨⟨by decide, by decide, ?_⟩, by decide, by decide, by decide⟩
  intro e he
  fin_cases he <;> simp [Silencing]

/-! ## Predictions -/

/-- C49 in full: at most one outcome is registered; an actual positive match of a prediction that is
being watched is a success whatever follows, an actual counter-evidence is a failure when failures
are rated, and if the deadline comes without evidence then a failure is registered exactly when
failures are rated and the target is a fact. -/
def C49_full : Prop :=
  ∀ p : PParams,
    (∀ ph, (pfine p ph).outs.length ≤ 1) ∧
    (∀ es e es', (prun p es).inv = false → (prun p es).listed = true →
      (∀ d, e = .input d (.actual false .positive) →
        (prun p (es ++ e :: es')).outs = [⟨true, (prun p es).clock + d, true⟩]) ∧
      (∀ d, e = .input d (.actual false .negative) → p.rateFailures = true →
        (prun p (es ++ e :: es')).outs = [⟨false, (prun p es).clock + d, true⟩]) ∧
      (∀ d, e = .fire d → (prun p es).job = true → (prun p es).ctl = true →
        p.deadline ≤ (prun p es).clock + d →
        ((prun p (es ++ [e])).outs = [⟨false, (prun p es).clock + d, false⟩] ↔
          p.rateFailures = true ∧ p.factTarget = true)))

/-- A prediction of a fact until time 10 by the primary or the secondary controller of a model. -/
def p10 : PParams := ⟨true, 10, 0, true, true⟩
def s10 : PParams := { p10 with primary := false }

/-- The secondary controller registers a failure after a success, and two cores can both register an
outcome at the primary one. -/
theorem C49_outcomes_violated :
    ¬ C49_full ∧
    (prun s10 [.input 1 (.actual false .positive), .fire 9]).outs =
      [⟨false, 10, false⟩, ⟨true, 1, true⟩] ∧
    (pfine p10 [.look 0, .look 1, .act 0 (.input 10 (.actual false .positive)),
      .act 1 (.fire 0)]).outs = [⟨false, 10, false⟩, ⟨true, 10, true⟩] := by
  refine ⟨fun h => ?_, by decide, by decide⟩
  have := (h p10).1 [.look 0, .look 1, .act 0 (.input 10 (.actual false .positive)), .act 1 (.fire 0)]
  exact absurd this (by decide)

theorem pstep_inv (p : PParams) (s : PState) (e : PEv) (h : s.inv = true) :
    (pstep p s e).inv = true ∧ (pstep p s e).outs = s.outs := by
  cases e <;> simp only [pstep, pact, preduce, pupdate, h] <;> (try split_ifs) <;> simp_all

/-- What one event can register. -/
theorem pstep_outs (p : PParams) (s : PState) (e : PEv) :
    (pstep p s e).outs = s.outs ∨
    (s.inv = false ∧ ((pstep p s e).inv = true ∨ p.primary = false) ∧
     ((∃ d, e = .input d (.actual false .positive) ∧ s.listed = true ∧
        (pstep p s e).listed = false ∧
        (pstep p s e).outs = ⟨true, s.clock + d, true⟩ :: s.outs) ∨
      (∃ d, e = .input d (.actual false .negative) ∧ s.listed = true ∧ p.rateFailures = true ∧
        (pstep p s e).listed = false ∧
        (pstep p s e).outs = ⟨false, s.clock + d, true⟩ :: s.outs) ∨
      (∃ d, e = .fire d ∧ s.job = true ∧ s.ctl = true ∧ p.deadline ≤ s.clock + d ∧
        p.rateFailures = true ∧ p.factTarget = true ∧ (pstep p s e).listed = false ∧
        (pstep p s e).job = false ∧
        (pstep p s e).outs = ⟨false, s.clock + d, false⟩ :: s.outs))) := by
  by_cases h : s.inv = true
  · exact Or.inl (pstep_inv p s e h).2
  have hi : s.inv = false := by simpa using h
  cases e with
  | input d i =>
    simp only [pstep, pact, preduce, hi, PEv.dt]
    by_cases hl : s.listed = true
    · cases i with
      | actual g ev =>
        cases g <;> cases ev <;> cases hp : p.primary <;> cases hr : p.rateFailures <;>
          simp [hl, pregister, hi, hp]
      | predicted g ev st =>
        cases g <;> cases ev <;> cases st <;> simp [hl]
    · simp [hl]
  | fire d =>
    simp only [pstep, pact, pupdate, hi, PEv.dt]
    by_cases hj : s.job = true
    · by_cases hd : s.clock + d < p.deadline
      · simp [hj, hd]
      · by_cases hc : s.ctl = true
        · cases hr : p.rateFailures <;> cases hf : p.factTarget <;> cases hp : p.primary <;>
            simp [hj, hd, hc, pregister, hi, hp] <;> omega
        · simp [hj, hd, hc]
    · simp [hj]
  | gone d => left; rfl
  | power d on => left; rfl

theorem pstep_listed (p : PParams) (s : PState) (e : PEv) (h : s.listed = false) :
    (pstep p s e).listed = false := by
  cases e <;> simp only [pstep, pact, pupdate, h] <;> (try split_ifs) <;> simp_all [pregister]

/-- C49 for events that are not interrupted. The primary controller gets at most one outcome. The
secondary one can get a second outcome from the timer, but at most one outcome changes the success
rate of the model in either case. Every outcome has its cause:
a success an actual positive match, a failure an actual counter-evidence or the deadline, failures
only when they are to be rated and at the deadline only for a fact. The first outcome is registered
as soon as its cause is seen.

Missing: two cores at once, and the failure that the secondary controller is told after a success. -/
theorem C49_outcomes_partial (p : PParams) (es : List PEv) :
    (p.primary = true → (prun p es).outs.length ≤ 1) ∧
    (rated p (prun p es)).length ≤ 1 ∧
    (∀ e, (prun p (es ++ [e])).outs = (prun p es).outs ∨
      (∃ d, e = .input d (.actual false .positive) ∧
        (prun p (es ++ [e])).outs = ⟨true, (prun p es).clock + d, true⟩ :: (prun p es).outs) ∨
      (∃ d, e = .input d (.actual false .negative) ∧ p.rateFailures = true ∧
        (prun p (es ++ [e])).outs = ⟨false, (prun p es).clock + d, true⟩ :: (prun p es).outs) ∨
      (∃ d, e = .fire d ∧ p.rateFailures = true ∧ p.factTarget = true ∧
        p.deadline ≤ (prun p es).clock + d ∧
        (prun p (es ++ [e])).outs = ⟨false, (prun p es).clock + d, false⟩ :: (prun p es).outs)) ∧
    ((prun p es).inv = false → (prun p es).listed = true → ∀ d,
      (prun p (es ++ [.input d (.actual false .positive)])).outs =
        [⟨true, (prun p es).clock + d, true⟩] ∧
      (prun p (es ++ [.input d (.actual false .negative)])).outs =
        (if p.rateFailures then [⟨false, (prun p es).clock + d, true⟩] else []) ∧
      ((prun p es).job = true → (prun p es).ctl = true → p.deadline ≤ (prun p es).clock + d →
        ((prun p (es ++ [.fire d])).outs = [⟨false, (prun p es).clock + d, false⟩] ↔
          p.rateFailures = true ∧ p.factTarget = true) ∧
        (¬ (p.rateFailures = true ∧ p.factTarget = true) → (prun p (es ++ [.fire d])).outs = []))) := by
  -- while the monitor is listed there is no outcome; a success needs it to be listed
  have inv1 : ∀ es : List PEv,
      ((prun p es).listed = true → (prun p es).outs = []) ∧
      (((prun p es).outs.filter fun r => r.success).length ≤ 1) ∧
      (p.primary = true → (prun p es).outs = [] ∨ ((prun p es).inv = true ∧ (prun p es).outs.length = 1)) := by
    intro es
    induction es using List.reverseRecOn with
    | nil => exact ⟨fun _ => rfl, by simp [prun, pinit], fun _ => Or.inl rfl⟩
    | append_singleton es e ih =>
      rw [prun_snoc]
      generalize prun p es = s at ih
      obtain ⟨i1, i2, i3⟩ := ih
      have back : (pstep p s e).listed = true → s.listed = true := by
        intro h
        by_contra hc
        rw [pstep_listed p s e (by simpa using hc)] at h
        exact absurd h (by simp)
      rcases pstep_outs p s e with h | ⟨hi, hp, h⟩
      · rw [h]
        refine ⟨fun hl => i1 (back hl), i2, fun hpr => ?_⟩
        rcases i3 hpr with h0 | ⟨h0, h1⟩
        · exact Or.inl h0
        · exact Or.inr ⟨(pstep_inv p s e h0).1, h1⟩
      · have hprim : p.primary = true → ∀ r : Report, (pstep p s e).outs = r :: s.outs →
            (pstep p s e).inv = true ∧ (pstep p s e).outs.length = 1 := by
          intro hpr r hr
          have h0 : s.outs = [] := by
            rcases i3 hpr with h0 | ⟨h0, _⟩
            · exact h0
            · rw [h0] at hi; exact absurd hi (by simp)
          rw [hr, h0]
          rcases hp with hp | hp
          · exact ⟨hp, rfl⟩
          · rw [hpr] at hp; exact absurd hp (by simp)
        rcases h with ⟨d, _, hl, hl', ho⟩ | ⟨d, _, hl, _, hl', ho⟩ | ⟨d, _, _, _, _, _, _, hl', _, ho⟩
        · refine ⟨fun hx => ?_, ?_, fun hpr => Or.inr (hprim hpr _ ho)⟩
          · rw [hl'] at hx; exact absurd hx (by simp)
          · rw [ho, i1 hl]; simp
        · refine ⟨fun hx => ?_, ?_, fun hpr => Or.inr (hprim hpr _ ho)⟩
          · rw [hl'] at hx; exact absurd hx (by simp)
          · rw [ho, i1 hl]; simp
        · refine ⟨fun hx => ?_, ?_, fun hpr => Or.inr (hprim hpr _ ho)⟩
          · rw [hl'] at hx; exact absurd hx (by simp)
          · rw [ho]; simpa using i2
  obtain ⟨i1, i2, i3⟩ := inv1 es
  refine ⟨fun hp => ?_, ?_, fun e => ?_, fun hi hl d => ?_⟩
  · rcases i3 hp with h | ⟨_, h⟩ <;> rw [h]; simp
  · cases hp : p.primary with
    | false => simpa [rated, hp] using i2
    | true =>
      simp only [rated, hp, Bool.true_or, List.filter_true]
      rcases i3 hp with h | ⟨_, h⟩ <;> rw [h]; simp
  · rw [prun_snoc]
    rcases pstep_outs p (prun p es) e with h | ⟨_, _, ⟨d, he, _, _, ho⟩ | ⟨d, he, _, hr, _, ho⟩ |
      ⟨d, he, _, _, hd, hr, hf, _, _, ho⟩⟩
    · exact Or.inl h
    · exact Or.inr (Or.inl ⟨d, he, ho⟩)
    · exact Or.inr (Or.inr (Or.inl ⟨d, he, hr, ho⟩))
    · exact Or.inr (Or.inr (Or.inr ⟨d, he, hr, hf, hd, ho⟩))
  · have h0 := i1 hl
    simp only [prun_snoc]
    refine ⟨?_, ?_, fun hj hc hd => ?_⟩
    · simp [pstep, pact, preduce, hi, hl, pregister, h0, PEv.dt]
    · cases hr : p.rateFailures <;>
        simp [pstep, pact, preduce, hi, hl, pregister, h0, PEv.dt, hr]
    · have hd' : ¬ (prun p es).clock + d < p.deadline := by omega
      cases hr : p.rateFailures <;> cases hf : p.factTarget <;>
        simp [pstep, pact, hi, hj, hc, hd', pupdate, pregister, h0, PEv.dt, hr, hf]

/-- What predictions do to a monitor that is watching. One that agrees, one about something else and a
counter-evidence that is not more certain are ignored; a more certain counter-evidence, and one that
refutes a ground, end the watching, and no outcome is registered any more. -/
theorem C49_predictions (p : PParams) (es : List PEv) (hi : (prun p es).inv = false)
    (hl : (prun p es).listed = true) (d : Nat) :
    (∀ ev stronger, (ev = .negative → stronger = false) →
      prun p (es ++ [.input d (.predicted false ev stronger)]) =
        { prun p es with clock := (prun p es).clock + d }) ∧
    (∀ g ev stronger, (g = true ∨ (ev = .negative ∧ stronger = true)) → ∀ es',
      (prun p (es ++ .input d (.predicted g ev stronger) :: es')).outs = []) := by
  have h0 : (prun p es).outs = [] := by
    have := (C49_outcomes_partial p es).2.2.2 hi hl 0
    by_contra hc
    have h1 := this.1
    simp only [prun_snoc, pstep, pact, preduce, hi, hl, pregister, PEv.dt] at h1
    simp at h1
    exact hc h1
  refine ⟨fun ev st hs => ?_, fun g ev st hg es' => ?_⟩
  · rw [prun_snoc]
    cases ev <;> cases st <;> simp_all [pstep, pact, preduce, PEv.dt]
  · have inert : ∀ (es' : List PEv) (s : PState), s.inv = true → s.outs = [] →
        (es'.foldl (pstep p) s).outs = [] := by
      intro es'
      induction es' with
      | nil => intro s _ h; exact h
      | cons e es' ih =>
        intro s h h'
        have := pstep_inv p s e h
        exact ih _ this.1 (this.2.trans h')
    have e0 : prun p (es ++ .input d (.predicted g ev st) :: es') =
        es'.foldl (pstep p) (pstep p (prun p es) (.input d (.predicted g ev st))) := by
      simp [prun, List.foldl_append]
    rw [e0]
    refine inert es' _ ?_ ?_ <;>
      rcases hg with rfl | ⟨rfl, rfl⟩ <;> (try cases g) <;>
        simp_all [pstep, pact, preduce, PEv.dt]

/-- Real executions: a success, a counter-evidence, silence, and silence about an anti-fact. -/
theorem C49_nonvacuous :
    (prun p10 [.input 3 (.predicted false .negative false), .input 1 (.actual false .positive),
      .fire 9]).outs = [⟨true, 4, true⟩] ∧
    (prun p10 [.input 4 (.actual false .negative), .fire 9]).outs = [⟨false, 4, true⟩] ∧
    (prun p10 [.fire 9, .fire 1]).outs = [⟨false, 10, false⟩] ∧
    (prun { p10 with factTarget := false } [.fire 12]).outs = [] ∧
    rated s10 (prun s10 [.input 1 (.actual false .positive), .fire 9]) = [⟨true, 1, true⟩] := by
  decide

end Verif.Monitors
