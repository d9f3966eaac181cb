import Verif.Cores.Spec
/-!
# C158: stop returns, and then all is over
-/
namespace Verif.Cores

theorem countP_set' {α : Type} (p : α → Bool) : ∀ {l : List α} {i : Nat} {a b : α}, l[i]? = some a →
    (l.set i b).countP p + (if p a then 1 else 0) = l.countP p + (if p b then 1 else 0)
  | [], i, a, b, h => by simp at h
  | x :: l, 0, a, b, h => by
    simp only [List.getElem?_cons_zero, Option.some.injEq] at h
    subst h
    simp only [List.set_cons_zero, List.countP_cons]; omega
  | x :: l, i + 1, a, b, h => by
    simp only [List.getElem?_cons_succ] at h
    have := countP_set' p (b := b) h
    simp only [List.set_cons_succ, List.countP_cons]; omega

theorem sum_set' (f : Core → Nat) : ∀ {l : List Core} {i : Nat} {a b : Core}, l[i]? = some a →
    ((l.set i b).map f).sum + f a = (l.map f).sum + f b
  | [], i, a, b, h => by simp at h
  | x :: l, 0, a, b, h => by
    simp only [List.getElem?_cons_zero, Option.some.injEq] at h
    subst h
    simp only [List.set_cons_zero, List.map_cons, List.sum_cons]; omega
  | x :: l, i + 1, a, b, h => by
    simp only [List.getElem?_cons_succ] at h
    have := sum_set' f (b := b) h
    simp only [List.set_cons_succ, List.map_cons, List.sum_cons]; omega

def isQuit : Job → Bool | .quit => true | .work => false
/-- Out, or about to be. -/
def isFin : Core → Bool | .done => true | .busy .quit => true | _ => false
def isPop : Core → Bool | .pop => true | _ => false

/-- Shutdown jobs waiting or taken. -/
def Pool.quits (p : Pool) : Nat := p.q.countP isQuit + p.cores.countP isFin
def Pool.pops (p : Pool) : Nat := p.cores.countP isPop
def Pool.done (p : Pool) : Prop := ∀ c ∈ p.cores, c = .done

/-- What a core does to its pool. -/
structure Went (st : Bool) (p p' : Pool) (d : Nat) : Prop where
  len : p'.cores.length = p.cores.length
  quits : p.quits ≤ p'.quits
  pops : st = true → p'.pops + d ≤ p.pops
  zero : st = false → d = 0
  busy : ¬ p.done
  less : st = true → (p'.cores.map Cores.ahead).sum < (p.cores.map Cores.ahead).sum

theorem goCore_went {s s' : State} {k : Kind} {i : Nat} (h : goCore s k i = some s') :
    ∃ p' d, Went s.stopped (s.pool k) p' d ∧ s' = { s.set k p' with late := s.late + d } := by
  unfold goCore at h
  have nd : ∀ c, (s.pool k).cores[i]? = some c → c ≠ .done → ¬ (s.pool k).done := fun c hc hn hd => hn (hd c (List.mem_of_getElem? hc))
  have keep : ∀ p', s.set k p' = { s.set k p' with late := s.late + 0 } := fun p' => by cases k <;> rfl
  generalize hp : s.pool k = p at *
  match hc : p.cores[i]? with
  | none => simp only [hc] at h; cases h
  | some .done => simp only [hc] at h; cases h
  | some .top =>
    simp only [hc, Option.some.injEq] at h
    subst h
    refine ⟨_, 0, ⟨by simp, ?_, fun hs => ?_, fun _ => rfl, nd _ hc (by simp), fun hs => ?_⟩, keep _⟩
    · have := countP_set' isFin (b := if s.stopped then .done else .pop) hc
      simp only [isFin, Pool.quits] at *; simp at this; split at this <;> simp_all <;> omega
    · have := countP_set' isPop (b := if s.stopped then .done else .pop) hc
      simp only [hs, if_true, isPop, Pool.pops] at *; simp at this; simp; omega
    · have := sum_set' Cores.ahead (b := if s.stopped then .done else .pop) hc
      simp only [hs, if_true, Cores.ahead] at *; omega
  | some .pop =>
    simp only [hc] at h
    match hq : p.q with
    | [] => simp only [hq] at h; cases h
    | j :: q =>
      simp only [hq, Option.some.injEq] at h
      subst h
      have c1 := countP_set' isFin (b := .busy j) hc
      have c2 := countP_set' isPop (b := .busy j) hc
      have c3 := sum_set' Cores.ahead (b := .busy j) hc
      refine ⟨⟨q, p.cores.set i (.busy j)⟩, if s.stopped = true ∧ j = .work then 1 else 0, ⟨by simp, ?_, fun hs => ?_, fun hs => ?_, nd _ hc (by simp), fun hs => ?_⟩, ?_⟩
      · simp only [Pool.quits, hq]
        cases j <;> simp [isFin, isQuit, List.countP_cons] at c1 ⊢ <;> omega
      · simp only [Pool.pops]
        cases j <;> simp [isPop, hs] at c2 ⊢ <;> omega
      · simp [hs]
      · cases j <;> simp only [Cores.ahead] at c3 ⊢ <;> omega
      · have hl : (s.set k ⟨q, p.cores.set i (.busy j)⟩).late = s.late := by cases k <;> rfl
        by_cases e : s.stopped = true ∧ j = .work
        · simp only [if_pos e]
        · simp only [if_neg e]; simp
  | some (.busy .work) =>
    simp only [hc, Option.some.injEq] at h
    subst h
    have c1 := countP_set' isFin (b := .top) hc
    have c2 := countP_set' isPop (b := .top) hc
    have c3 := sum_set' Cores.ahead (b := .top) hc
    refine ⟨_, 0, ⟨by simp, ?_, fun hs => ?_, fun _ => rfl, nd _ hc (by simp), fun hs => ?_⟩, keep _⟩
    · simp [isFin, Pool.quits] at *; omega
    · simp [isPop, Pool.pops] at *; omega
    · simp [Cores.ahead] at *; omega
  | some (.busy .quit) =>
    simp only [hc, Option.some.injEq] at h
    subst h
    have c1 := countP_set' isFin (b := .done) hc
    have c2 := countP_set' isPop (b := .done) hc
    have c3 := sum_set' Cores.ahead (b := .done) hc
    refine ⟨_, 0, ⟨by simp, ?_, fun hs => ?_, fun _ => rfl, nd _ hc (by simp), fun hs => ?_⟩, keep _⟩
    · simp [isFin, Pool.quits] at *; omega
    · simp [isPop, Pool.pops] at *; omega
    · simp [Cores.ahead] at *; omega

/-- Shutdown jobs still to be pushed. -/
def leftRed (n : Nat) : Stop → Nat
  | .idle => n
  | .pushRed m => m
  | _ => 0
def leftTime (n : Nat) : Stop → Nat
  | .idle => n
  | .pushRed _ => n
  | .pushTime m => m
  | _ => 0
/-- The state has been set; the time cores, all cores, have been waited for; the semaphore is held. -/
def Stop.marked : Stop → Bool
  | .joinTime | .joinRed | .sem | .free | .returned => true
  | _ => false
def Stop.timeDone : Stop → Bool
  | .joinRed | .sem | .free | .returned => true
  | _ => false
def Stop.redDone : Stop → Bool
  | .sem | .free | .returned => true
  | _ => false
def Stop.holds : Stop → Bool
  | .free | .returned => true
  | _ => false

structure Inv (nRed nTime : Nat) (s : State) : Prop where
  red : s.red.cores.length = nRed ∧ nRed ≤ s.red.quits + leftRed nRed s.stop
  time : s.time.cores.length = nTime ∧ nTime ≤ s.time.quits + leftTime nTime s.stop
  marked : s.stopped = s.stop.marked
  timeDone : s.stop.timeDone = true → s.time.done
  redDone : s.stop.redDone = true → s.red.done
  count : s.count = s.live + (if s.stuck then 1 else 0)
  held : s.stop.holds = true → s.sem = 0 ∧ s.live = 0
  open_ : s.stop.holds = false → s.stuck = false ∧ s.sem = if s.live = 0 then 1 else 0
  freed : s.freed = (s.stop == .returned)
  late : (s.stopped = false → s.late = 0) ∧ (s.stopped = true → s.late + s.red.pops + s.time.pops ≤ nRed + nTime)
  ub : s.ub = true → s.stop = .returned

theorem pops_le (p : Pool) : p.pops ≤ p.cores.length := List.countP_le_length

theorem inv_init (nRed nTime jRed jTime : Nat) : Inv nRed nTime (init nRed nTime jRed jTime) := by
  constructor <;> simp [init, leftRed, leftTime, Stop.marked, Stop.timeDone, Stop.redDone, Stop.holds]

theorem inv_push {nRed nTime : Nat} {s : State} (h : Inv nRed nTime s) (d : Kind) : Inv nRed nTime (doPush s d) := by
  unfold doPush
  by_cases e : s.stopped = true
  · rw [if_pos e]; exact h
  · rw [if_neg e]
    have nf : s.freed = false := by
      have h1 := h.marked
      have h2 := h.freed
      cases hs : s.stop <;> simp_all [Stop.marked]
    have hq : ∀ p : Pool, p.quits ≤ ({ p with q := p.q ++ [.work] } : Pool).quits := fun p => by simp [Pool.quits, isQuit]
    cases d with
    | red =>
      refine ⟨⟨h.red.1, Nat.le_trans h.red.2 (Nat.add_le_add_right (hq s.red) _)⟩, h.time, h.marked, h.timeDone, h.redDone, h.count, h.held, h.open_, h.freed, h.late, ?_⟩
      intro hu
      simp only [nf, Bool.or_false] at hu
      exact h.ub hu
    | time =>
      refine ⟨h.red, ⟨h.time.1, Nat.le_trans h.time.2 (Nat.add_le_add_right (hq s.time) _)⟩, h.marked, h.timeDone, h.redDone, h.count, h.held, h.open_, h.freed, h.late, ?_⟩
      intro hu
      simp only [nf, Bool.or_false] at hu
      exact h.ub hu

theorem inv_core {nRed nTime : Nat} {s s' : State} (h : Inv nRed nTime s) {k : Kind} {i : Nat} (hs : goCore s k i = some s') : Inv nRed nTime s' := by
  obtain ⟨p', d, w, rfl⟩ := goCore_went hs
  cases k with
  | red =>
    refine ⟨⟨w.len.trans h.red.1, Nat.le_trans h.red.2 (Nat.add_le_add_right w.quits _)⟩, h.time, h.marked, h.timeDone, fun k => absurd (h.redDone k) w.busy, h.count, h.held, h.open_, h.freed, ⟨fun k => ?_, fun k => ?_⟩, h.ub⟩
    · have a := h.late.1 k
      have b := w.zero k
      show s.late + d = 0; omega
    · have a := h.late.2 k
      have b := w.pops k
      show s.late + d + p'.pops + s.time.pops ≤ nRed + nTime
      simp only [State.pool] at b; omega
  | time =>
    refine ⟨h.red, ⟨w.len.trans h.time.1, Nat.le_trans h.time.2 (Nat.add_le_add_right w.quits _)⟩, h.marked, fun k => absurd (h.timeDone k) w.busy, h.redDone, h.count, h.held, h.open_, h.freed, ⟨fun k => ?_, fun k => ?_⟩, h.ub⟩
    · have a := h.late.1 k
      have b := w.zero k
      show s.late + d = 0; omega
    · have a := h.late.2 k
      have b := w.pops k
      show s.late + d + s.red.pops + p'.pops ≤ nRed + nTime
      simp only [State.pool] at b; omega

theorem inv_enter {nRed nTime : Nat} {s s' : State} (h : Inv nRed nTime s) (hs : doEnter s = some s') : Inv nRed nTime s' := by
  unfold doEnter at hs
  by_cases e : s.born = 0 ∨ s.stuck = true
  · rw [if_pos e] at hs; cases hs
  rw [if_neg e] at hs
  obtain ⟨e1, e2⟩ := not_or.mp e
  have hst : s.stuck = false := by simpa using e2
  have hc := h.count
  rw [hst] at hc
  simp only [Bool.false_eq_true, if_false, Nat.add_zero] at hc
  by_cases hz : s.live = 0
  · have h1 : s.count + 1 = 1 := by omega
    rw [if_pos h1] at hs
    by_cases hsem : s.sem = 1
    · rw [if_pos hsem] at hs
      cases hs
      have hh : s.stop.holds = false := by
        cases hq : s.stop.holds with
        | false => rfl
        | true => have := (h.held hq).1; omega
      refine ⟨h.red, h.time, h.marked, h.timeDone, h.redDone, ?_, fun k => ?_, fun _ => ⟨hst, ?_⟩, h.freed, h.late, fun k => ?_⟩
      · simp [hst, hc]
      · rw [hh] at k; cases k
      · simp
      · simp only [Bool.or_eq_true] at k
        rcases k with k | k
        · exact h.ub k
        · rw [h.freed] at k
          simpa using k
    · rw [if_neg hsem] at hs
      cases hs
      have hh : s.stop.holds = true := by
        cases hq : s.stop.holds with
        | true => rfl
        | false => have := (h.open_ hq).2; rw [if_pos hz] at this; omega
      refine ⟨h.red, h.time, h.marked, h.timeDone, h.redDone, ?_, h.held, fun k => ?_, h.freed, h.late, fun k => ?_⟩
      · simp [hc]
      · rw [hh] at k; cases k
      · simp only [Bool.or_eq_true] at k
        rcases k with k | k
        · exact h.ub k
        · rw [h.freed] at k
          simpa using k
  · have h1 : ¬ s.count + 1 = 1 := by omega
    rw [if_neg h1] at hs
    cases hs
    have hh : s.stop.holds = false := by
      cases hq : s.stop.holds with
      | false => rfl
      | true => exact absurd (h.held hq).2 hz
    refine ⟨h.red, h.time, h.marked, h.timeDone, h.redDone, ?_, fun k => ?_, fun _ => ⟨hst, ?_⟩, h.freed, h.late, h.ub⟩
    · simp [hst, hc]
    · rw [hh] at k; cases k
    · have := (h.open_ hh).2
      rw [if_neg hz] at this
      simp [this]

theorem inv_leave {nRed nTime : Nat} {s s' : State} (h : Inv nRed nTime s) (hs : doLeave s = some s') : Inv nRed nTime s' := by
  unfold doLeave at hs
  by_cases e : s.live = 0 ∨ s.stuck = true
  · rw [if_pos e] at hs; cases hs
  rw [if_neg e] at hs
  obtain ⟨e1, e2⟩ := not_or.mp e
  have hst : s.stuck = false := by simpa using e2
  have hc := h.count
  rw [hst] at hc
  simp only [Bool.false_eq_true, if_false, Nat.add_zero] at hc
  have hh : s.stop.holds = false := by
    cases hq : s.stop.holds with
    | false => rfl
    | true => exact absurd (h.held hq).2 e1
  have nf : s.freed = false := by
    rw [h.freed]
    cases hq : s.stop <;> simp_all [Stop.holds]
  by_cases hz : s.count - 1 = 0
  · rw [if_pos hz] at hs
    cases hs
    refine ⟨h.red, h.time, h.marked, h.timeDone, h.redDone, ?_, fun k => ?_, fun _ => ⟨hst, ?_⟩, h.freed, h.late, fun k => ?_⟩
    · simp [hst, hc]
    · rw [hh] at k; cases k
    · show 1 = if s.live - 1 = 0 then 1 else 0
      rw [if_pos (by omega)]
    · simp only [nf, Bool.or_false] at k; exact h.ub k
  · rw [if_neg hz] at hs
    cases hs
    refine ⟨h.red, h.time, h.marked, h.timeDone, h.redDone, ?_, fun k => ?_, fun _ => ⟨hst, ?_⟩, h.freed, h.late, h.ub⟩
    · simp [hst, hc]
    · rw [hh] at k; cases k
    · have := (h.open_ hh).2
      rw [if_neg e1] at this
      show s.sem = if s.live - 1 = 0 then 1 else 0
      rw [if_neg (by omega)]; exact this

theorem quits_snoc (p : Pool) : ({ p with q := p.q ++ [.quit] } : Pool).quits = p.quits + 1 := by
  simp [Pool.quits, isQuit]; omega

theorem all_done {p : Pool} (h : p.cores.all (· == .done) = true) : p.done := fun c hc => by
  simpa using List.all_eq_true.mp h c hc

theorem inv_stop {nRed nTime : Nat} {s s' : State} (h : Inv nRed nTime s) (hs : doStop s = some s') : Inv nRed nTime s' := by
  unfold doStop at hs
  have hm := h.marked
  have hf := h.freed
  have hu := h.ub
  have hl := h.late
  have hR := h.red
  have hT := h.time
  have hO := h.open_
  have hH := h.held
  have hTD := h.timeDone
  have hRD := h.redDone
  cases hst : s.stop with
  | idle =>
    rw [hst] at hm hf hu hR hT hO hH hTD hRD
    simp only [hst] at hs
    rw [if_neg (by rw [hm]; decide)] at hs
    cases hs
    refine ⟨⟨hR.1, by rw [hR.1]; exact hR.2⟩, hT, hm, (fun k => by cases k), (fun k => by cases k), h.count, (fun k => by cases k), hO, hf, hl, fun k => by cases hu k⟩
  | pushRed n =>
    rw [hst] at hm hf hu hR hT hO hH hTD hRD
    cases n with
    | zero =>
      simp only [hst] at hs; cases hs
      exact ⟨hR, ⟨hT.1, by rw [hT.1]; exact hT.2⟩, hm, (fun k => by cases k), (fun k => by cases k), h.count, (fun k => by cases k), hO, hf, hl, fun k => by cases hu k⟩
    | succ n =>
      simp only [hst] at hs; cases hs
      refine ⟨⟨hR.1, ?_⟩, hT, hm, (fun k => by cases k), (fun k => by cases k), h.count, (fun k => by cases k), hO, hf, hl, fun k => by cases hu k⟩
      have := hR.2
      rw [quits_snoc]; simp only [leftRed] at *; omega
  | pushTime n =>
    rw [hst] at hm hf hu hR hT hO hH hTD hRD
    cases n with
    | zero =>
      simp only [hst] at hs; cases hs
      exact ⟨hR, hT, hm, (fun k => by cases k), (fun k => by cases k), h.count, (fun k => by cases k), hO, hf, hl, fun k => by cases hu k⟩
    | succ n =>
      simp only [hst] at hs; cases hs
      refine ⟨hR, ⟨hT.1, ?_⟩, hm, (fun k => by cases k), (fun k => by cases k), h.count, (fun k => by cases k), hO, hf, hl, fun k => by cases hu k⟩
      have := hT.2
      rw [quits_snoc]; simp only [leftTime] at *; omega
  | mark =>
    rw [hst] at hm hf hu hR hT hO hH hTD hRD
    simp only [hst] at hs; cases hs
    refine ⟨hR, hT, rfl, (fun k => by cases k), (fun k => by cases k), h.count, (fun k => by cases k), hO, hf, ⟨(fun k => by cases k), fun _ => ?_⟩, fun k => by cases hu k⟩
    have a := hl.1 hm
    have b := pops_le s.red
    have c := pops_le s.time
    show s.late + s.red.pops + s.time.pops ≤ _
    rw [hR.1] at b; rw [hT.1] at c; omega
  | joinTime =>
    rw [hst] at hm hf hu hR hT hO hH hTD hRD
    simp only [hst] at hs
    by_cases e : s.time.cores.all (· == .done) = true
    · rw [if_pos e] at hs; cases hs
      exact ⟨hR, hT, hm, fun _ => all_done e, (fun k => by cases k), h.count, (fun k => by cases k), hO, hf, hl, fun k => by cases hu k⟩
    · rw [if_neg e] at hs; cases hs
  | joinRed =>
    rw [hst] at hm hf hu hR hT hO hH hTD hRD
    simp only [hst] at hs
    by_cases e : s.red.cores.all (· == .done) = true
    · rw [if_pos e] at hs; cases hs
      exact ⟨hR, hT, hm, hTD, fun _ => all_done e, h.count, (fun k => by cases k), hO, hf, hl, fun k => by cases hu k⟩
    · rw [if_neg e] at hs; cases hs
  | sem =>
    rw [hst] at hm hf hu hR hT hO hH hTD hRD
    simp only [hst] at hs
    by_cases e : s.sem = 1
    · rw [if_pos e] at hs; cases hs
      refine ⟨hR, hT, hm, hTD, hRD, h.count, fun _ => ⟨rfl, ?_⟩, (fun k => by cases k), hf, hl, fun k => by cases hu k⟩
      have := (hO rfl).2
      refine Decidable.byContradiction fun k => ?_
      change ¬ s.live = 0 at k
      rw [if_neg k] at this; omega
    · rw [if_neg e] at hs; cases hs
  | free =>
    rw [hst] at hm hf hu hR hT hO hH hTD hRD
    simp only [hst] at hs; cases hs
    exact ⟨hR, hT, hm, hTD, hRD, h.count, fun _ => hH rfl, (fun k => by cases k), rfl, hl, fun _ => rfl⟩
  | returned => simp only [hst] at hs; cases hs

theorem inv_step {nRed nTime : Nat} {s s' : State} (h : Inv nRed nTime s) {a : Act} (hs : step s a = some s') : Inv nRed nTime s' := by
  cases a with
  | core k i => exact inv_core h hs
  | push k i d =>
    simp only [step] at hs
    split at hs
    · cases hs; exact inv_push h d
    · cases hs
  | spawn i =>
    simp only [step] at hs
    split at hs
    · cases hs
      exact ⟨h.red, h.time, h.marked, h.timeDone, h.redDone, h.count, h.held, h.open_, h.freed, h.late, h.ub⟩
    · cases hs
  | enter => exact inv_enter h hs
  | pushD d =>
    simp only [step] at hs
    split at hs
    · cases hs
    · cases hs; exact inv_push h d
  | leave => exact inv_leave h hs
  | stop => exact inv_stop h hs

theorem inv_run {nRed nTime : Nat} : ∀ (as : List Act) {s s' : State}, Inv nRed nTime s → run s as = some s' → Inv nRed nTime s'
  | [], s, s', h, e => by cases e; exact h
  | a :: as, s, s', h, e => by
    simp only [run] at e
    cases hs : step s a with
    | none => rw [hs] at e; cases e
    | some t => rw [hs] at e; exact inv_run as (inv_step h hs) e

theorem inv_reach {nRed nTime jRed jTime : Nat} {s : State} (h : Reach nRed nTime jRed jTime s) : Inv nRed nTime s := by
  obtain ⟨as, h⟩ := h
  exact inv_run as (inv_init _ _ _ _) h

/-- While not all shutdown jobs have been taken there is one. -/
theorem queue_ne {p : Pool} {n : Nat} (h1 : p.cores.length = n) (h2 : n ≤ p.quits) {i : Nat} (h3 : p.cores[i]? = some .pop) : p.q ≠ [] := by
  intro e
  have a := countP_set' isFin (b := .done) h3
  have b : (p.cores.set i .done).countP isFin ≤ (p.cores.set i .done).length := List.countP_le_length
  simp only [isFin, List.length_set] at a b
  simp [Pool.quits, e] at h2
  simp at a
  omega

/-- Once the state has been set every core can go on. -/
theorem goes {nRed nTime : Nat} {s : State} (h : Inv nRed nTime s) (hs : s.stopped = true) {k : Kind} {i : Nat} {c : Core} (hc : (s.pool k).cores[i]? = some c)
    (hd : c ≠ .done) : ∃ s', step s (.core k i) = some s' := by
  have hm : s.stop.marked = true := by rw [← h.marked]; exact hs
  have hl : leftRed nRed s.stop = 0 ∧ leftTime nTime s.stop = 0 := by cases hq : s.stop <;> simp_all [Stop.marked, leftRed, leftTime]
  have hR := h.red
  have hT := h.time
  rw [hl.1] at hR
  rw [hl.2] at hT
  match c, hc, hd with
  | .top, hc, _ => exact ⟨_, by simp only [step, goCore, hc]; rfl⟩
  | .busy .work, hc, _ => exact ⟨_, by simp only [step, goCore, hc]; rfl⟩
  | .busy .quit, hc, _ => exact ⟨_, by simp only [step, goCore, hc]; rfl⟩
  | .done, _, hd => exact absurd rfl hd
  | .pop, hc, _ =>
    have hq : (s.pool k).q ≠ [] := by
      cases k with
      | red => exact queue_ne hR.1 hR.2 hc
      | time => exact queue_ne hT.1 hT.2 hc
    obtain ⟨j, q, hj⟩ := List.exists_cons_of_ne_nil hq
    exact ⟨_, by simp only [step, goCore, hc, hj]; rfl⟩

theorem not_all {p : Pool} (h : ¬ p.cores.all (· == .done) = true) : ∃ (i : Nat) (c : Core), p.cores[i]? = some c ∧ c ≠ .done := by
  simp only [List.all_eq_true, Classical.not_forall] at h
  obtain ⟨c, hc, h⟩ := h
  obtain ⟨i, hi⟩ := List.mem_iff_getElem?.mp hc
  exact ⟨i, c, hi, by simpa using h⟩

theorem moves {nRed nTime : Nat} {s : State} (h : Inv nRed nTime s) (h1 : s.stop ≠ .idle) (h2 : s.stop ≠ .returned) : Moves s := by
  have core : s.stopped = true → ∀ (k : Kind) (i : Nat) (c : Core), (s.pool k).cores[i]? = some c → c ≠ .done → Moves s := fun hs k i c hc hd =>
    ⟨.core k i, by simp, goes h hs hc hd⟩
  have hm := h.marked
  cases hst : s.stop with
  | idle => exact absurd hst h1
  | returned => exact absurd hst h2
  | pushRed n => cases n <;> exact ⟨.stop, by simp, _, by simp only [step, doStop, hst]; rfl⟩
  | pushTime n => cases n <;> exact ⟨.stop, by simp, _, by simp only [step, doStop, hst]; rfl⟩
  | mark => exact ⟨.stop, by simp, _, by simp only [step, doStop, hst]; rfl⟩
  | joinTime =>
    rw [hst] at hm
    by_cases e : s.time.cores.all (· == .done) = true
    · exact ⟨.stop, by simp, _, by simp only [step, doStop, hst]; rw [if_pos e]⟩
    · obtain ⟨i, c, a, b⟩ := not_all e
      exact core hm .time i c a b
  | joinRed =>
    rw [hst] at hm
    by_cases e : s.red.cores.all (· == .done) = true
    · exact ⟨.stop, by simp, _, by simp only [step, doStop, hst]; rw [if_pos e]⟩
    · obtain ⟨i, c, a, b⟩ := not_all e
      exact core hm .red i c a b
  | sem =>
    have ho := h.open_ (by rw [hst]; rfl)
    by_cases e : s.live = 0
    · rw [if_pos e] at ho
      exact ⟨.stop, by simp, _, by simp only [step, doStop, hst]; rw [if_pos ho.2]⟩
    · refine ⟨.leave, by simp, ?_⟩
      simp only [step, doLeave]
      rw [if_neg (by simp [e, ho.1])]
      split
      · exact ⟨_, rfl⟩
      · exact ⟨_, rfl⟩
  | free => exact ⟨.stop, by simp, _, by simp only [step, doStop, hst]; rfl⟩

/-- C158, without what is said of delegates whose thread is not there yet: cores and delegates that are there are waited
for; stop does not wait for ever; each core begins at most one job more. -/
theorem C158_stop_partial {nRed nTime jRed jTime : Nat} {s : State} (h : Reach nRed nTime jRed jTime s) :
    (s.stop = .returned → Ended s ∧ s.live = 0) ∧
    (s.stop ≠ .idle → s.stop ≠ .returned → Moves s) ∧
    (s.stopped = true → ∀ (k : Kind) (i : Nat) (c : Core), (s.pool k).cores[i]? = some c → c ≠ .done → ∃ s', step s (.core k i) = some s') ∧
    s.late ≤ nRed + nTime ∧
    (s.stop ≠ .returned → s.ub = false) := by
  have i := inv_reach h
  refine ⟨fun k => ⟨⟨i.redDone (by rw [k]; rfl), i.timeDone (by rw [k]; rfl)⟩, (i.held (by rw [k]; rfl)).2⟩, fun a b => moves i a b, fun a _ _ _ b c => goes i a b c, ?_, fun k => ?_⟩
  · cases hs : s.stopped with
    | false => rw [i.late.1 hs]; omega
    | true => have := i.late.2 hs; omega
  · cases hu : s.ub with
    | false => rfl
    | true => exact absurd (i.ub hu) k

/-- C158, of the time it takes: once the state has been set each step of a core brings the cores nearer to their end, and no other
step takes them away from it. -/
theorem C158_nearer_partial {s s' : State} (hs : s.stopped = true) {a : Act} (h : step s a = some s') :
    s'.stopped = true ∧ s'.ahead ≤ s.ahead ∧ ((∃ k i, a = .core k i) → s'.ahead < s.ahead) := by
  cases a with
  | core k i =>
    obtain ⟨p', d, w, rfl⟩ := goCore_went h
    have := w.less hs
    cases k with
    | red =>
      simp only [State.pool] at this
      have hlt : (p'.cores.map Cores.ahead).sum + (s.time.cores.map Cores.ahead).sum < s.ahead := by simp only [State.ahead]; omega
      exact ⟨hs, Nat.le_of_lt hlt, fun _ => hlt⟩
    | time =>
      simp only [State.pool] at this
      have hlt : (s.red.cores.map Cores.ahead).sum + (p'.cores.map Cores.ahead).sum < s.ahead := by simp only [State.ahead]; omega
      exact ⟨hs, Nat.le_of_lt hlt, fun _ => hlt⟩
  | push k i d =>
    simp only [step, doPush, hs, if_true] at h
    split at h
    · cases h; exact ⟨hs, Nat.le_refl _, (fun ⟨_, _, e⟩ => by cases e)⟩
    · cases h
  | spawn i =>
    simp only [step] at h
    split at h
    · cases h; exact ⟨hs, Nat.le_refl _, (fun ⟨_, _, e⟩ => by cases e)⟩
    · cases h
  | enter =>
    simp only [step, doEnter] at h
    repeat' split at h
    all_goals first | (cases h; done) | (cases h; exact ⟨hs, Nat.le_refl _, (fun ⟨_, _, e⟩ => by cases e)⟩)
  | pushD d =>
    simp only [step, doPush, hs, if_true] at h
    split at h
    · cases h
    · cases h; exact ⟨hs, Nat.le_refl _, (fun ⟨_, _, e⟩ => by cases e)⟩
  | leave =>
    simp only [step, doLeave] at h
    repeat' split at h
    all_goals first | (cases h; done) | (cases h; exact ⟨hs, Nat.le_refl _, (fun ⟨_, _, e⟩ => by cases e)⟩)
  | stop =>
    simp only [step, doStop] at h
    repeat' split at h
    all_goals first | (cases h; done) | (cases h; exact ⟨by first | exact hs | rfl, Nat.le_refl _, (fun ⟨_, _, e⟩ => by cases e)⟩)

/-- Executions in which the threads of all delegates have come to their first step when stop takes the semaphore. -/
def Prompt : State → List Act → Prop
  | _, [] => True
  | s, a :: as => (a = .stop → s.stop = .sem → s.born = 0) ∧ match step s a with
    | none => True
    | some t => Prompt t as

instance promptDec : ∀ (s : State) (as : List Act), Decidable (Prompt s as)
  | _, [] => .isTrue trivial
  | s, a :: as => by
    simp only [Prompt]
    cases h : step s a with
    | none => exact inferInstance
    | some t => exact @instDecidableAnd _ _ _ (promptDec t as)

theorem born_step {nRed nTime : Nat} {s s' : State} (i : Inv nRed nTime s) {a : Act} (ha : a = .stop → s.stop = .sem → s.born = 0) (h : step s a = some s')
    (hb : s.stop.holds = true → s.born = 0 ∧ s.stuck = false ∧ s.ub = false) : s'.stop.holds = true → s'.born = 0 ∧ s'.stuck = false ∧ s'.ub = false := by
  intro hh
  cases a with
  | core k n =>
    obtain ⟨p', d, w, rfl⟩ := goCore_went h
    cases k <;> exact hb hh
  | push k n d =>
    simp only [step] at h
    split at h
    · rename_i hc
      cases h
      have hp : s.stop.holds = true := by
        unfold doPush at hh
        cases d <;> (split at hh <;> exact hh)
      have hm : s.stopped = true := by rw [i.marked]; cases hq : s.stop <;> simp_all [Stop.holds, Stop.marked]
      unfold doPush; rw [if_pos hm]; exact hb hp
    · cases h
  | spawn n =>
    simp only [step] at h
    split at h
    · rename_i hc
      cases h
      have hd : s.stop.timeDone = true := by
        change s.stop.holds = true at hh
        cases hq : s.stop <;> simp_all [Stop.holds, Stop.timeDone]
      have := i.timeDone hd _ (List.mem_of_getElem? hc)
      cases this
    · cases h
  | enter =>
    simp only [step, doEnter] at h
    have hp : s.stop.holds = true := by
      repeat' split at h
      all_goals first | (cases h; done) | (cases h; exact hh)
    rw [if_pos (.inl (hb hp).1)] at h; cases h
  | pushD d =>
    simp only [step] at h
    split at h
    · cases h
    · rename_i hl
      cases h
      have hp : s.stop.holds = true := by
        unfold doPush at hh
        cases d <;> (split at hh <;> exact hh)
      exact absurd (i.held hp).2 hl
  | leave =>
    simp only [step, doLeave] at h
    have hp : s.stop.holds = true := by
      repeat' split at h
      all_goals first | (cases h; done) | (cases h; exact hh)
    rw [if_pos (.inl (i.held hp).2)] at h; cases h
  | stop =>
    have hu := i.ub
    have ho := i.open_
    have hm := i.marked
    simp only [step, doStop] at h
    cases hst : s.stop with
    | idle =>
      simp only [hst] at h
      rw [hst] at hm
      rw [if_neg (by rw [hm]; decide)] at h
      cases h; cases hh
    | pushRed n => cases n <;> (simp only [hst] at h; cases h; cases hh)
    | pushTime n => cases n <;> (simp only [hst] at h; cases h; cases hh)
    | mark => simp only [hst] at h; cases h; cases hh
    | joinTime =>
      simp only [hst] at h
      split at h
      · cases h; cases hh
      · cases h
    | joinRed =>
      simp only [hst] at h
      split at h
      · cases h; cases hh
      · cases h
    | sem =>
      simp only [hst] at h
      split at h
      · cases h
        refine ⟨ha rfl hst, (ho (by rw [hst]; rfl)).1, ?_⟩
        cases hq : s.ub with
        | false => rfl
        | true => have := hu hq; rw [hst] at this; cases this
      · cases h
    | free =>
      simp only [hst] at h
      cases h
      exact hb (by rw [hst]; rfl)
    | returned => simp only [hst] at h; cases h

theorem prompt_run {nRed nTime : Nat} : ∀ (as : List Act) {s s' : State}, Inv nRed nTime s → Prompt s as → run s as = some s' →
    (s.stop.holds = true → s.born = 0 ∧ s.stuck = false ∧ s.ub = false) → s'.stop.holds = true → s'.born = 0 ∧ s'.stuck = false ∧ s'.ub = false
  | [], s, s', _, _, e, hb => by cases e; exact hb
  | a :: as, s, s', i, hp, e, hb => by
    simp only [run] at e
    cases hs : step s a with
    | none => rw [hs] at e; cases e
    | some t =>
      rw [hs] at e
      simp only [Prompt, hs] at hp
      exact prompt_run as (inv_step i hs) hp.2 e (born_step i hp.1 hs hb)

/-- C158, in executions in which the threads of all delegates have come to their first step when stop takes the semaphore. -/
theorem C158_prompt_partial {nRed nTime jRed jTime : Nat} {as : List Act} {s : State} (h : run (init nRed nTime jRed jTime) as = some s)
    (hp : Prompt (init nRed nTime jRed jTime) as) : C158At nRed nTime s := by
  obtain ⟨h1, h2, h3, h4, h5⟩ := C158_stop_partial ⟨as, h⟩
  have i := inv_reach (⟨as, h⟩ : Reach nRed nTime jRed jTime s)
  have key := prompt_run as (inv_init _ _ _ _) hp h (fun k => by cases k)
  refine ⟨h1, fun k => ?_, ?_, h2, h3, h4, ?_⟩
  · obtain ⟨a, b, _⟩ := key (by rw [k]; rfl)
    exact ⟨a, b⟩
  · by_cases k : s.stop = .returned
    · exact (key (by rw [k]; rfl)).2.2
    · exact h5 k
  · cases hh : s.stop.holds with
    | true => exact (key hh).2.1
    | false => exact (i.open_ hh).1

/-! ## Cases -/

/-- A time core takes a job that is early and makes a delegate; stop does all it has to; then the thread of the delegate comes to its
first step. -/
def early : List Act := [.core .time 0, .core .time 0, .spawn 0, .stop, .stop, .stop, .stop, .stop, .core .time 0, .core .time 0, .stop, .stop]
def overtaken : List Act := early ++ [.stop, .stop, .enter]
/-- The same, and the delegate comes when stop has the semaphore but has not deleted anything. -/
def blocked : List Act := early ++ [.stop, .enter]
/-- The same, and the delegate comes in time. -/
def inTime : List Act := [.core .time 0, .core .time 0, .spawn 0, .enter, .stop, .stop, .stop, .stop, .stop, .core .time 0, .core .time 0, .stop, .stop, .leave, .stop, .stop]

/-- Where the full property fails: a delegate whose thread is slow is not waited for, and uses the semaphore that was deleted, or waits
for it for ever. -/
theorem C158_stop_violated : ¬ C158_full ∧
    (∃ s, run (init 0 1 0 1) overtaken = some s ∧ s.stop = .returned ∧ s.ub = true) ∧
    ∃ s, run (init 0 1 0 1) blocked = some s ∧ s.stuck = true := by
  have h1 : ∃ s, run (init 0 1 0 1) overtaken = some s ∧ s.stop = .returned ∧ s.ub = true :=
    ⟨((run (init 0 1 0 1) overtaken).get (by decide)), by simp, by decide, by decide⟩
  have h2 : ∃ s, run (init 0 1 0 1) blocked = some s ∧ s.stuck = true :=
    ⟨((run (init 0 1 0 1) blocked).get (by decide)), by simp, by decide⟩
  refine ⟨fun h => ?_, h1, h2⟩
  obtain ⟨s, a, _, b⟩ := h1
  have := (h 0 1 0 1 s ⟨_, a⟩).safe
  rw [b] at this; cases this

/-- An execution in which a delegate is waited for, and stop returns. -/
theorem C158_nonvacuous : ∃ s, run (init 0 1 0 1) inTime = some s ∧ s.stop = .returned ∧ Prompt (init 0 1 0 1) inTime ∧ C158At 0 1 s := by
  have hp : Prompt (init 0 1 0 1) inTime := by decide +kernel
  exact ⟨((run (init 0 1 0 1) inTime).get (by decide)), by simp, by decide, hp, C158_prompt_partial (by simp) hp⟩

end Verif.Cores
