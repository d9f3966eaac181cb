import Verif.Sched.Lemmas
/-!
# Properties C27 (order of execution), C28 (clock) and C29 (no job lost)
-/
namespace Verif.Sched

/-! ## What a step does -/

/-- Everything about one step, by event. -/
structure StepSpec (s : St) (i : In) (s' : St) (e : Ev) : Prop where
  inv : Inv s'
  period : s'.period = s.period
  endTime : s'.endTime = s.endTime
  mono : s.now ≤ s'.now
  notPast : s.now < s'.now → ∀ k ∈ pendingT s, s'.now ≤ k.target
  event : match e with
    | .finished => s'.now = s.now ∧ s.endTime ≤ s.now ∧ (pendingT s').Perm (pendingT s) ∧
        pendingR s' = pendingR s
    | .reduction j => s'.now = s.now ∧ (pendingT s').Perm (pendingT s ++ mkJobs s.next i.pushT) ∧
        ∃ rest, pendingR s = j :: rest ∧ pendingR s' = rest ++ List.range' s.nextR i.pushR
    | .pass => s'.now = s.now ∧ (pendingT s').Perm (pendingT s) ∧ pendingR s' = pendingR s
    | .tick => (pendingT s').Perm (pendingT s ++ mkJobs s.next i.pushT) ∧
        pendingR s' = pendingR s ++ List.range' s.nextR i.pushR ∧
        (s.need = false → s'.now = s.tick + s.period ∧ ∀ k ∈ pendingT s, s.tick + s.period < k.target) ∧
        s'.need = false ∧ s'.tick = s'.now
    | .idle => False
    | .dead j => i.alive = false ∧ j ∈ pendingT s ∧ (∀ k ∈ pendingT s, k ≠ j → Before j k) ∧
        j.target ≤ s'.now ∧ (pendingT s').Perm ((pendingT s).erase j) ∧ pendingR s' = pendingR s
    | .ran j t again => i.alive = true ∧ t = s'.now ∧ j ∈ pendingT s ∧
        (∀ k ∈ pendingT s, k ≠ j → Before j k) ∧
        j.target ≤ t ∧ (t = j.target ∨ t = s.now) ∧
        (pendingT s').Perm ((pendingT s).erase j ++ again.toList ++ mkJobs (s.next + 1) i.pushT) ∧
        pendingR s' = pendingR s ++ List.range' s.nextR i.pushR ∧
        again = (if i.cont = true ∧ i.nextTarget ≠ 0 then some ⟨i.nextTarget, s.next⟩ else none)

theorem perm_erase {j : Job} {rest l : List Job} (h : (j :: rest).Perm l) : rest.Perm (l.erase j) := by
  have := h.erase j
  rwa [List.erase_cons_head] at this

/-- The state after time has been advanced by one period. -/
def ticked (s : St) : St :=
  { s with tick := s.tick + s.period, now := s.tick + s.period, nRed := 0, need := true }

theorem timePhase_spec {s : St} (i : In) (h : Inv s) :
    StepSpec s i (timePhase s i).1 (timePhase s i).2 := by
  have h1 := transfer_inv h
  have hperm := transfer_pending s
  have hmem0 : (transfer s).memT = [] := rfl
  have hR0 : pendingR (transfer s) = pendingR s := rfl
  have hnow0 : (transfer s).now = s.now := rfl
  have htick0 : (transfer s).tick = s.tick := rfl
  have hper0 : (transfer s).period = s.period := rfl
  have hend0 : (transfer s).endTime = s.endTime := rfl
  have hneed0 : (transfer s).need = s.need := rfl
  have hnx0 : (transfer s).next = s.next := rfl
  have hnr0 : (transfer s).nextR = s.nextR := rfl
  unfold timePhase
  simp only
  generalize transfer s = s1 at *
  by_cases hend : s1.now ≥ s1.endTime
  · rw [if_pos hend]
    refine ⟨h1, hper0, hend0, by show s.now ≤ s1.now; omega, by show s.now < s1.now → _; omega,
      hnow0, by omega, ?_, hR0⟩
    simp only [pendingT, hmem0, List.append_nil]; exact hperm
  · rw [if_neg hend]
    have h2 := maybeTick_inv h1
    -- the tick, if any
    have hcase : (maybeTick s1 = s1 ∧ (s1.need = true ∨ ∃ j l, s1.ordered = j :: l ∧
          j.target < s1.tick + s1.period)) ∨
        (s1.need = false ∧ maybeTick s1 = ticked s1 ∧
          ∀ k ∈ pendingT s, s1.tick + s1.period ≤ k.target) := by
      unfold maybeTick
      by_cases hc : (!s1.need && noneBefore (s1.tick + s1.period) s1.ordered) = true
      · rw [if_pos hc]
        simp only [Bool.and_eq_true, Bool.not_eq_true'] at hc
        refine Or.inr ⟨hc.1, rfl, ?_⟩
        intro k hk
        cases ho : s1.ordered with
        | nil => rw [ho] at hperm; exact absurd (hperm.mem_iff.mpr hk) (by simp)
        | cons j l =>
          rw [ho] at hperm hc
          have hs := h1.sorted
          rw [ho] at hs
          have := front_target hs hperm k hk
          have h3 : j.target ≥ s1.tick + s1.period := by simpa [noneBefore] using hc.2
          omega
      · rw [if_neg hc]
        refine Or.inl ⟨rfl, ?_⟩
        cases hn : s1.need with
        | true => exact Or.inl rfl
        | false =>
          right
          cases ho : s1.ordered with
          | nil => rw [hn, ho] at hc; simp [noneBefore] at hc
          | cons j l =>
            refine ⟨j, l, rfl, ?_⟩
            rw [hn, ho] at hc
            simpa [noneBefore] using hc
    have hmono : s.now ≤ (maybeTick s1).now := by
      rcases hcase with ⟨e, _⟩ | ⟨_, e, _⟩ <;> rw [e]
      · omega
      · have := h1.high; show s.now ≤ s1.tick + s1.period; omega
    have hpast : s.now < (maybeTick s1).now → ∀ k ∈ pendingT s, (maybeTick s1).now ≤ k.target := by
      rcases hcase with ⟨e, _⟩ | ⟨_, e, hk⟩ <;> rw [e]
      · intro hlt; omega
      · intro _; exact hk
    have f1 : (maybeTick s1).ordered = s1.ordered := by
      rcases hcase with ⟨e, _⟩ | ⟨_, e, _⟩ <;> rw [e]
      rfl
    have f2 : (maybeTick s1).memT = [] := by rcases hcase with ⟨e, _⟩ | ⟨_, e, _⟩ <;> rw [e] <;> exact hmem0
    have f3 : pendingR (maybeTick s1) = pendingR s := by
      rcases hcase with ⟨e, _⟩ | ⟨_, e, _⟩ <;> rw [e] <;> exact hR0
    have f4 : (maybeTick s1).period = s.period := by rcases hcase with ⟨e, _⟩ | ⟨_, e, _⟩ <;> rw [e] <;> exact hper0
    have f5 : (maybeTick s1).endTime = s.endTime := by rcases hcase with ⟨e, _⟩ | ⟨_, e, _⟩ <;> rw [e] <;> exact hend0
    have f6 : (maybeTick s1).next = s.next := by rcases hcase with ⟨e, _⟩ | ⟨_, e, _⟩ <;> rw [e] <;> exact hnx0
    have f7 : (maybeTick s1).nextR = s.nextR := by rcases hcase with ⟨e, _⟩ | ⟨_, e, _⟩ <;> rw [e] <;> exact hnr0
    have fneed : (maybeTick s1).need = true ∨ ∃ j l, (maybeTick s1).ordered = j :: l ∧
        j.target < (maybeTick s1).tick + (maybeTick s1).period := by
      rcases hcase with ⟨e, q⟩ | ⟨_, e, _⟩ <;> rw [e]
      · exact q
      · exact Or.inl rfl
    have ftick : (maybeTick s1).need = true → s.need = false →
        (maybeTick s1).now = s.tick + s.period := by
      rcases hcase with ⟨e, q⟩ | ⟨_, e, _⟩ <;> rw [e]
      · intro a b; rw [hneed0, b] at a; cases a
      · intro _ _; show s1.tick + s1.period = _; omega
    generalize maybeTick s1 = s2 at *
    have hperm2 : s2.ordered.Perm (pendingT s) := by rw [f1]; exact hperm
    by_cases hd : (s2.need && !dueBy s2.tick s2.ordered) = true
    · rw [if_pos hd]
      simp only [Bool.and_eq_true, Bool.not_eq_true'] at hd
      have hinv : Inv { s2 with need := false } :=
        ⟨h2.sorted, h2.memSorted, h2.cross, h2.bound, h2.period, h2.low, h2.high,
          fun q => by simp at q, h2.idx⟩
      refine ⟨push_inv i hinv, f4, f5, hmono, hpast, ?_, ?_, ?_, rfl, (h2.need hd.1).symm⟩
      · simp only [pendingT, push, f2, List.nil_append, f6]
        exact List.Perm.append_right _ hperm2
      · rw [← f3, ← f7]
        simp only [pendingR, push, List.append_assoc]
      · intro hn
        have e1 := ftick hd.1 hn
        refine ⟨e1, ?_⟩
        intro k hk
        cases ho : s2.ordered with
        | nil => rw [ho] at hperm2; exact absurd (hperm2.mem_iff.mpr hk) (by simp)
        | cons j l =>
          have hs := h2.sorted
          rw [ho] at hperm2 hd hs
          have h3 := front_target hs hperm2 k hk
          have h4 : s2.tick < j.target := by simpa [dueBy] using hd.2
          have h5 := h2.need hd.1
          omega
    · rw [if_neg hd]
      cases ho : s2.ordered with
      | nil =>
        exfalso
        rw [ho] at hd fneed
        rcases fneed with hn | ⟨_, _, q, _⟩
        · rw [hn] at hd; simp [dueBy] at hd
        · cases q
      | cons j rest =>
        have hs := h2.sorted
        rw [ho] at hperm2 hs hd fneed
        obtain ⟨hj, hbefore⟩ := front_before hs hperm2
        have hft := front_target hs hperm2
        have herase := perm_erase hperm2
        have hlt : j.target < s2.tick + s2.period := by
          rcases fneed with hn | ⟨_, _, q, hq⟩
          · rw [hn] at hd
            have : j.target ≤ s2.tick := by simpa [dueBy] using hd
            have := h2.period; omega
          · cases q; exact hq
        have hneedle : s2.need = true → j.target ≤ s2.tick := by
          intro hn; rw [hn] at hd; simpa [dueBy] using hd
        let s3 : St := { s2 with now := if j.target > s2.now then j.target else s2.now, ordered := rest }
        have hnow3 : s3.now = if j.target > s2.now then j.target else s2.now := rfl
        have hge : s2.now ≤ s3.now ∧ j.target ≤ s3.now ∧ (s3.now = j.target ∨ s3.now = s2.now) := by
          rw [hnow3]; split <;> omega
        have hinv3 : Inv s3 := by
          refine ⟨(List.pairwise_cons.mp hs).2, h2.memSorted, ?_, ?_, h2.period, ?_, ?_, ?_, h2.idx⟩
          · intro a ha b hb; rw [show s3.memT = [] from f2] at hb; simp at hb
          · intro a ha
            refine h2.bound a ?_
            simp only [pendingT, List.mem_append] at ha ⊢
            rcases ha with ha | ha
            · left; rw [ho]; exact List.mem_cons_of_mem _ ha
            · right; exact ha
          · have := h2.low; show s2.tick ≤ s3.now; omega
          · show s3.now < s2.tick + s2.period
            have := h2.high
            rcases hge.2.2 with q | q <;> omega
          · intro hn
            have a := h2.need hn
            have b := hneedle hn
            show s3.now = s2.tick
            rw [hnow3, if_neg (by omega)]; exact a
        have hinv3' : Inv { s3 with next := s3.next + 1 } :=
          ⟨hinv3.sorted, hinv3.memSorted, hinv3.cross,
            fun a ha => Nat.lt_succ_of_lt (hinv3.bound a ha), hinv3.period, hinv3.low, hinv3.high,
            hinv3.need, hinv3.idx⟩
        have hmono3 : s.now ≤ s3.now := by omega
        have hpast3 : s.now < s3.now → ∀ k ∈ pendingT s, s3.now ≤ k.target := by
          intro hl k hk
          rcases hge.2.2 with q | q
          · rw [q]; exact hft k hk
          · rw [q] at hl ⊢; exact hpast hl k hk
        have htime : s3.now = j.target ∨ s3.now = s.now := by
          rcases hge.2.2 with q | q
          · exact Or.inl q
          · by_cases hl : s.now < s2.now
            · left
              have := hpast hl j hj
              omega
            · right; omega
        have e0 : runFront s2 i = if !i.alive then (s3, .dead j)
            else if !i.cont then (push { s3 with next := s3.next + 1 } i, .ran j s3.now none)
            else if i.nextTarget ≠ 0 then
              ({ push { s3 with next := s3.next + 1 } i with
                  ordered := insert ⟨i.nextTarget, s3.next⟩ rest },
                .ran j s3.now (some ⟨i.nextTarget, s3.next⟩))
            else (push { s3 with next := s3.next + 1 } i, .ran j s3.now none) := by
          simp only [runFront, ho]; rfl
        rw [e0]
        have pR : pendingR (push { s3 with next := s3.next + 1 } i) =
            pendingR s ++ List.range' s.nextR i.pushR := by
          rw [← f3, ← f7]
          simp only [pendingR, push, s3, List.append_assoc]
        have pT : pendingT (push { s3 with next := s3.next + 1 } i) = rest ++ mkJobs (s.next + 1) i.pushT := by
          simp only [pendingT, push, s3, f2, f6, List.nil_append]
        have pTperm : (rest ++ mkJobs (s.next + 1) i.pushT).Perm
            ((pendingT s).erase j ++ mkJobs (s.next + 1) i.pushT) := List.Perm.append_right _ herase
        have plain : ∀ (_ : i.alive = true) (_ : ¬ (i.cont = true ∧ i.nextTarget ≠ 0)),
            StepSpec s i (push { s3 with next := s3.next + 1 } i) (.ran j s3.now none) := by
          intro ha hno
          refine ⟨push_inv i hinv3', f4, f5, hmono3, hpast3, ha, rfl, hj, hbefore, hge.2.1, htime, ?_,
            pR, by rw [if_neg hno]⟩
          rw [pT]; simpa using pTperm
        cases ha : i.alive with
        | false =>
          simp only [Bool.not_false, if_true]
          refine ⟨hinv3, f4, f5, hmono3, hpast3, ha, hj, hbefore, hge.2.1, ?_, f3⟩
          simp only [pendingT, s3, f2, List.append_nil]; exact herase
        | true =>
          simp only [Bool.not_true, Bool.false_eq_true, if_false]
          cases hc : i.cont with
          | false =>
            simp only [Bool.not_false, if_true]
            exact plain ha (by simp [hc])
          | true =>
            simp only [Bool.not_true, Bool.false_eq_true, if_false]
            by_cases hx : i.nextTarget = 0
            · rw [if_neg (by simp [hx])]
              exact plain ha (by simp [hx])
            · rw [if_pos hx]
              have hp := push_inv i hinv3'
              refine ⟨?_, f4, f5, hmono3, hpast3, ha, rfl, hj, hbefore, hge.2.1, htime, ?_, pR,
                by rw [if_pos ⟨hc, hx⟩]; show some (Job.mk _ s2.next) = _; rw [f6]⟩
              · have hb : ∀ a ∈ rest, a.seq < s3.next := fun a ha => hinv3.bound a (by
                  simp only [pendingT, List.mem_append]; exact Or.inl ha)
                refine ⟨insert_sorted hinv3.sorted hb, hp.memSorted, ?_, ?_, hp.period, hp.low, hp.high,
                  hp.need, hp.idx⟩
                · intro a ha b hb'
                  rcases mem_insert.mp ha with rfl | ha
                  · rw [show (push { s3 with next := s3.next + 1 } i).memT =
                      mkJobs (s3.next + 1) i.pushT by simp [push, s3, f2]] at hb'
                    have := (mem_mkJobs hb').1
                    show s3.next < b.seq
                    omega
                  · exact hp.cross a ha b hb'
                · intro a ha
                  simp only [pendingT, List.mem_append] at ha
                  rcases ha with ha | ha
                  · rcases mem_insert.mp ha with rfl | ha
                    · show s3.next < s3.next + 1 + i.pushT.length; omega
                    · exact hp.bound a (by simp only [pendingT, List.mem_append]; exact Or.inl ha)
                  · exact hp.bound a (by simp only [pendingT, List.mem_append]; exact Or.inr ha)
              · have e : pendingT ({ push { s3 with next := s3.next + 1 } i with
                    ordered := insert ⟨i.nextTarget, s3.next⟩ rest }) =
                    insert ⟨i.nextTarget, s3.next⟩ rest ++ mkJobs (s.next + 1) i.pushT := by
                  simp only [pendingT, push, s3, f2, f6, List.nil_append]
                rw [e]
                refine List.Perm.append_right _ ?_
                refine (insert_perm _ _).trans ?_
                simp only [Option.toList_some]
                exact (herase.cons _).trans (List.perm_append_comm (l₁ := [_]))

theorem step_spec {s : St} (i : In) (h : Inv s) : StepSpec s i (step s i).1 (step s i).2 := by
  have hr := redPhase_spec i h
  unfold step
  cases e : redPhase s i with
  | inl r =>
    obtain ⟨s', ev⟩ := r
    rw [e] at hr
    obtain ⟨h1, h2, h3, h4, h5, h6, h7⟩ := hr
    rcases h7 with ⟨j, rfl, hT, hR⟩ | ⟨rfl, hT, hR⟩
    · exact ⟨h1, h4, h5, by show s.now ≤ s'.now; omega, by show s.now < s'.now → _; omega, h2,
        by show (pendingT s').Perm _; rw [hT], hR⟩
    · exact ⟨h1, h4, h5, by show s.now ≤ s'.now; omega, by show s.now < s'.now → _; omega, h2,
        by show (pendingT s').Perm _; rw [hT], hR⟩
  | inr s1 =>
    rw [e] at hr
    obtain ⟨h1, h2, h3, h4, h5, h6, h7, h8, h9, h10, h11⟩ := hr
    have ht := timePhase_spec i h1
    have hp : pendingT s1 = pendingT s := by simp only [pendingT, h7, h8]
    obtain ⟨t1, t2, t3, t4, t5, t6⟩ := ht
    simp only
    refine ⟨t1, by rw [t2, h4], by rw [t3, h5], by omega, ?_, ?_⟩
    · rw [← h2, ← hp]; exact t5
    · rw [← h2, ← hp, ← h11, ← h9, ← h10, ← h6, ← h3, ← h4, ← h5]; exact t6

theorem init_inv (t period runTime : Int) (ts : List Int) (rs : Nat) (hp : 0 < period) :
    Inv (init t period runTime ts rs) := by
  refine ⟨by simp [init], mkJobs_sorted _ _, by simp [init], ?_, hp, Int.le_refl _,
    by show t < t + period; omega, by simp [init], by simp [init]⟩
  intro a ha
  simp only [pendingT, init, List.nil_append] at ha
  have := (mem_mkJobs ha).2.1
  show a.seq < ts.length
  omega

theorem reach_inv {t period runTime : Int} {ts : List Int} {rs : Nat} {s : St} (hp : 0 < period)
    (h : Reach t period runTime ts rs s) : Inv s := by
  induction h with
  | init => exact init_inv _ _ _ _ _ hp
  | step i _ ih => exact (step_spec i ih).inv

/-! ## C27 -/

/-- C27: in every run, whatever the jobs do, a job that is executed has the earliest target of all
jobs waiting, and among those of equal target it was submitted first; it is not executed before its
target time. -/
theorem C27_order (t period runTime : Int) (ts : List Int) (rs : Nat) (hp : 0 < period) (s : St)
    (h : Reach t period runTime ts rs s) (i : In) (j : Job) (at_ : Int) (again : Option Job)
    (he : (step s i).2 = .ran j at_ again) :
    (j ∈ pendingT s ∧ ∀ k ∈ pendingT s, k ≠ j →
      j.target < k.target ∨ (j.target = k.target ∧ j.seq < k.seq)) ∧
    j.target ≤ at_ ∧ at_ = (step s i).1.now := by
  have hs := (step_spec i (reach_inv hp h)).event
  rw [he] at hs
  obtain ⟨_, h1, h2, h3, h4, _⟩ := hs
  exact ⟨⟨h2, h3⟩, h4, h1⟩

/-- Runs in which no job is submitted for a time already past. -/
inductive Punctual (t period runTime : Int) (ts : List Int) (rs : Nat) : St → List Job → Prop
  | init : (∀ x ∈ ts, t ≤ x) → Punctual t period runTime ts rs (init t period runTime ts rs) []
  | step {s : St} {done : List Job} (i : In) : Punctual t period runTime ts rs s done →
      (∀ x ∈ i.pushT, (step s i).1.now ≤ x) → (i.nextTarget ≠ 0 → (step s i).1.now ≤ i.nextTarget) →
      Punctual t period runTime ts rs (step s i).1
        (done ++ match (step s i).2 with
          | .ran j _ _ => [j]
          | _ => [])

/-- C27: if no job is submitted for a time already past, every job is executed at its target time
exactly, and the whole sequence of executed jobs is in non-decreasing order of target times. -/
theorem C27_on_time (t period runTime : Int) (ts : List Int) (rs : Nat) (hp : 0 < period) (s : St)
    (done : List Job) (h : Punctual t period runTime ts rs s done) :
    done.Pairwise (fun a b => a.target ≤ b.target) ∧ (∀ a ∈ done, a.target ≤ s.now) ∧
    (∀ k ∈ pendingT s, s.now ≤ k.target) ∧
    (∀ i j at_ again, (step s i).2 = .ran j at_ again → at_ = j.target) := by
  have hreach : Reach t period runTime ts rs s := by
    induction h with
    | init _ => exact .init
    | step i _ _ _ ih => exact .step i ih
  have hlast : ∀ s, Reach t period runTime ts rs s → (∀ k ∈ pendingT s, s.now ≤ k.target) →
      ∀ i j at_ again, (step s i).2 = .ran j at_ again → at_ = j.target := by
    intro s hr hk i j at_ again he
    have hs := (step_spec i (reach_inv hp hr)).event
    rw [he] at hs
    obtain ⟨_, h1, h2, h3, h4, h5, _⟩ := hs
    rcases h5 with h5 | h5
    · exact h5
    · have := hk j h2; omega
  have key : done.Pairwise (fun a b => a.target ≤ b.target) ∧ (∀ a ∈ done, a.target ≤ s.now) ∧
      (∀ k ∈ pendingT s, s.now ≤ k.target) := by
    clear hreach
    induction h with
    | init hx =>
      refine ⟨by simp, by simp, ?_⟩
      intro k hk
      simp only [pendingT, init, List.nil_append] at hk
      exact hx _ (mem_mkJobs hk).2.2
    | @step s done i hpun hpush hnext ih =>
      have hr : Reach t period runTime ts rs s := by
        clear ih hpush hnext
        induction hpun with
        | init _ => exact .init
        | step i _ _ _ ih => exact .step i ih
      obtain ⟨p1, p2, p3⟩ := ih
      have hspec := step_spec i (reach_inv hp hr)
      have hmono := hspec.mono
      have hpast := hspec.notPast
      have hrun := hlast s hr p3 i
      have hev := hspec.event
      have hold : ∀ k ∈ pendingT s, (step s i).1.now ≤ k.target ∨ (step s i).1.now = s.now := by
        intro k hk
        by_cases hl : s.now < (step s i).1.now
        · exact Or.inl (hpast hl k hk)
        · exact Or.inr (by omega)
      have hpend : ∀ k ∈ pendingT (step s i).1, (step s i).1.now ≤ k.target := by
        intro k hk
        have fromOld : k ∈ pendingT s → (step s i).1.now ≤ k.target := by
          intro hk
          rcases hold k hk with h | h
          · exact h
          · rw [h]; exact p3 k hk
        have fromNew : ∀ n, k ∈ mkJobs n i.pushT → (step s i).1.now ≤ k.target := fun n hk =>
          hpush _ (mem_mkJobs hk).2.2
        cases he : (step s i).2 with
        | finished => rw [he] at hev; exact fromOld (hev.2.2.1.mem_iff.mp hk)
        | reduction r =>
          rw [he] at hev
          rcases List.mem_append.mp (hev.2.1.mem_iff.mp hk) with hk | hk
          · exact fromOld hk
          · exact fromNew _ hk
        | pass => rw [he] at hev; exact fromOld (hev.2.1.mem_iff.mp hk)
        | tick =>
          rw [he] at hev
          rcases List.mem_append.mp (hev.1.mem_iff.mp hk) with hk | hk
          · exact fromOld hk
          · exact fromNew _ hk
        | idle => rw [he] at hev; exact hev.elim
        | dead j =>
          rw [he] at hev
          exact fromOld (List.mem_of_mem_erase (hev.2.2.2.2.1.mem_iff.mp hk))
        | ran j at_ again =>
          rw [he] at hev
          obtain ⟨_, _, _, _, _, _, hpm, _, hag⟩ := hev
          rcases List.mem_append.mp (hpm.mem_iff.mp hk) with hk | hk
          · rcases List.mem_append.mp hk with hk | hk
            · exact fromOld (List.mem_of_mem_erase hk)
            · rw [hag] at hk
              split at hk
              · rename_i hc
                simp at hk; subst hk
                exact hnext hc.2
              · simp at hk
          · exact fromNew _ hk
      refine ⟨?_, ?_, hpend⟩
      · rw [List.pairwise_append]
        refine ⟨p1, ?_, ?_⟩
        · split <;> simp
        · intro a ha b hb
          split at hb
          · rename_i j at_ again he
            simp at hb; subst hb
            rw [he] at hev
            have hjm := hev.2.2.1
            have := p2 a ha
            have := p3 b hjm
            omega
          · simp at hb
      · intro a ha
        rcases List.mem_append.mp ha with ha | ha
        · have := p2 a ha; omega
        · split at ha
          · rename_i j at_ again he
            simp at ha; subst ha
            rw [he] at hev
            have h1 := hev.2.1
            have h2 := hev.2.2.2.2.1
            omega
          · simp at ha
  exact ⟨key.1, key.2.1, key.2.2, hlast s hreach key.2.2⟩

/-! ## C28 -/

/-- C28: the clock never runs backwards, and whenever it advances it does not pass the target of
any waiting job. -/
theorem C28_clock (t period runTime : Int) (ts : List Int) (rs : Nat) (hp : 0 < period) (s : St)
    (h : Reach t period runTime ts rs s) (i : In) :
    s.now ≤ (step s i).1.now ∧
    (s.now < (step s i).1.now → ∀ k ∈ pendingT s, (step s i).1.now ≤ k.target) := by
  have hs := step_spec i (reach_inv hp h)
  exact ⟨hs.mono, hs.notPast⟩

/-- A step input under which nothing is pushed. -/
def Quiet (i : In) : Prop := i.pushT = [] ∧ i.pushR = 0

/-- C28: when no work is waiting and none is submitted, time advances by a sampling period at
least at every second step, until the end of the run. -/
theorem C28_advances (t period runTime : Int) (ts : List Int) (rs : Nat) (hp : 0 < period) (s : St)
    (h : Reach t period runTime ts rs s) (hT : pendingT s = []) (hR : pendingR s = [])
    (hidx : s.idx = 0) (i i' : In) (hi : Quiet i) :
    (step s i).2 = .finished ∨ (step (step s i).1 i').2 = .finished ∨
    s.now < (step (step s i).1 i').1.now := by
  have hinv := reach_inv hp h
  have hm : s.memT = [] ∧ s.ordered = [] := by
    simp only [pendingT, List.append_eq_nil_iff] at hT; exact ⟨hT.2, hT.1⟩
  have hl : s.loc = [] ∧ s.memR = [] := by
    simp only [pendingR, hidx, List.drop_zero, List.append_eq_nil_iff] at hR; exact hR
  -- a quiescent state's step
  have quiet : ∀ (u : St) (k : In), Inv u → u.memT = [] → u.ordered = [] → u.loc = [] → u.memR = [] →
      u.idx = 0 → step u k = (if u.now ≥ u.endTime then ({ u with pass := 1 }, .finished) else
        (push { (if u.need then { u with pass := 1 } else ticked { u with pass := 1 }) with need := false } k, .tick)) := by
    intro u k _ q1 q2 q3 q4 q5
    have hr : redPhase u k = .inr u := by
      unfold redPhase
      have e : ({ u with loc := u.loc ++ u.memR, memR := [] } : St) = u := by
        cases u; simp_all
      by_cases hp : u.pass ≤ 100
      · simp [hp, q5, e, q3, q4]
        cases u; simp_all
      · simp [hp]
    have ht : transfer u = { u with pass := 1 } := by
      cases u; simp_all [transfer]
    simp only [step, hr, timePhase, ht]
    split
    · rfl
    · cases hn : u.need <;> simp [maybeTick, hn, q2, noneBefore, dueBy, ticked]
  have e1 := quiet s i hinv hm.1 hm.2 hl.1 hl.2 hidx
  by_cases hend : s.now ≥ s.endTime
  · left; rw [e1, if_pos hend]
  · right
    rw [if_neg hend] at e1
    have hinv1 := (step_spec i hinv).inv
    have hspec2 := step_spec i' hinv1
    have e2 := quiet (step s i).1 i' hinv1
      (by rw [e1]; cases hn : s.need <;> simp [push, ticked, hi.1, mkJobs, hm.1])
      (by rw [e1]; cases hn : s.need <;> simp [push, ticked, hm.2])
      (by rw [e1]; cases hn : s.need <;> simp [push, ticked, hl.1])
      (by rw [e1]; cases hn : s.need <;> simp [push, ticked, hi.2, hl.2])
      (by rw [e1]; cases hn : s.need <;> simp [push, ticked, hidx])
    by_cases hend2 : (step s i).1.now ≥ (step s i).1.endTime
    · left; rw [e2, if_pos hend2]
    · right
      rw [if_neg hend2] at e2
      have hn1 : (step s i).1.need = false := by rw [e1]; cases hn : s.need <;> rfl
      rw [hn1] at e2
      have hnow2 : (step (step s i).1 i').1.now = (step s i).1.tick + (step s i).1.period := by
        rw [e2]; rfl
      have := hinv1.high
      have := (step_spec i hinv).mono
      omega

/-! ## C29 -/

/-- C29: time jobs. In every run, the jobs waiting after a step are those waiting before, without
the one executed (or found dead), with those pushed during the step and, if the executed job asked
for it, that job again at the time it asked for. -/
theorem C29_time_jobs (t period runTime : Int) (ts : List Int) (rs : Nat) (hp : 0 < period) (s : St)
    (h : Reach t period runTime ts rs s) (i : In) :
    match (step s i).2 with
    | .ran j _ again => ∃ new, new.map Job.target = i.pushT ∧ j ∈ pendingT s ∧
        (pendingT (step s i).1).Perm ((pendingT s).erase j ++ again.toList ++ new) ∧
        (∀ j', again = some j' ↔ i.cont = true ∧ i.nextTarget ≠ 0 ∧ j' = ⟨i.nextTarget, s.next⟩)
    | .dead j => i.alive = false ∧ j ∈ pendingT s ∧
        (pendingT (step s i).1).Perm ((pendingT s).erase j)
    | .reduction _ | .tick => ∃ new, new.map Job.target = i.pushT ∧
        (pendingT (step s i).1).Perm (pendingT s ++ new)
    | .finished | .pass | .idle => (pendingT (step s i).1).Perm (pendingT s) := by
  have hs := (step_spec i (reach_inv hp h)).event
  split
  · rename_i j at_ again he
    rw [he] at hs
    obtain ⟨_, _, h2, _, _, _, h3, _, h4⟩ := hs
    refine ⟨_, mkJobs_targets _ _, h2, h3, ?_⟩
    intro j'
    rw [h4]
    split
    · rename_i hc
      simp only [Option.some.injEq]
      exact ⟨fun q => ⟨hc.1, hc.2, q.symm⟩, fun q => q.2.2.symm⟩
    · rename_i hc
      simp only [reduceCtorEq, false_iff]
      rintro ⟨a, b, _⟩; exact hc ⟨a, b⟩
  · rename_i j he; rw [he] at hs; exact ⟨hs.1, hs.2.1, hs.2.2.2.2.1⟩
  · rename_i j he; rw [he] at hs; exact ⟨_, mkJobs_targets _ _, hs.2.1⟩
  · rename_i he; rw [he] at hs; exact ⟨_, mkJobs_targets _ _, hs.1⟩
  · rename_i he; rw [he] at hs; exact hs.2.2.1
  · rename_i he; rw [he] at hs; exact hs.2.1
  · rename_i he; rw [he] at hs; exact hs.elim

/-- C29: reduction jobs. They are executed in the order of submission, each once: the waiting jobs
form a queue from whose front the executed one is taken and at whose end new ones are added. -/
theorem C29_reduction_jobs (t period runTime : Int) (ts : List Int) (rs : Nat) (hp : 0 < period)
    (s : St) (h : Reach t period runTime ts rs s) (i : In) :
    match (step s i).2 with
    | .reduction r => ∃ rest new, pendingR s = r :: rest ∧ new.length = i.pushR ∧
        pendingR (step s i).1 = rest ++ new
    | .ran _ _ _ | .tick => ∃ new, new.length = i.pushR ∧ pendingR (step s i).1 = pendingR s ++ new
    | .dead _ | .finished | .pass | .idle => pendingR (step s i).1 = pendingR s := by
  have hs := (step_spec i (reach_inv hp h)).event
  split
  · rename_i r he; rw [he] at hs
    obtain ⟨_, _, rest, h1, h2⟩ := hs
    exact ⟨rest, _, h1, by simp, h2⟩
  · rename_i he; rw [he] at hs; exact ⟨_, by simp, hs.2.2.2.2.2.2.2.1⟩
  · rename_i he; rw [he] at hs; exact ⟨_, by simp, hs.2.1⟩
  · rename_i he; rw [he] at hs; exact hs.2.2.2.2.2
  · rename_i he; rw [he] at hs; exact hs.2.2.2
  · rename_i he; rw [he] at hs; exact hs.2.2
  · rename_i he; rw [he] at hs; exact hs.elim

/-! ## A concrete run -/

def quietIn : In := ⟨[], 0, true, true, 0⟩

def runEvents : St → List In → List Ev
  | _, [] => []
  | s, i :: l => (step s i).2 :: runEvents (step s i).1 l

/-- Jobs for 30, 10, 10 (period 100, from time 0), the first job for 10 asking to be run again at
30 and pushing a job for 20. -/
example : runEvents (init 0 100 1000 [30, 10, 10] 0)
    [⟨[20], 0, true, true, 30⟩, quietIn, quietIn, quietIn, quietIn, quietIn] =
    [.ran ⟨10, 1⟩ 10 (some ⟨30, 3⟩), .ran ⟨10, 2⟩ 10 none, .ran ⟨20, 4⟩ 20 none,
     .ran ⟨30, 0⟩ 30 none, .ran ⟨30, 3⟩ 30 none, .tick] := by decide

end Verif.Sched
