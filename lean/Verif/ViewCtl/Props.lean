import Verif.ViewCtl.Model
import Mathlib.Algebra.BigOperators.Group.List.Basic
import Mathlib.Data.List.Induction
/-!
# Properties C21-C24 (control values of views, group statistics) and C62 (copied views)
-/
namespace Verif.ViewCtl
open Verif.F32

/-! ## C21 -/

/-- The three control values bound to [0,1]. -/
inductive Ctl | sln | act | vis
  deriving DecidableEq

def Ctl.member : Ctl → Member
  | .sln => .sln | .act => .act | .vis => .vis

def View.chan (v : View) : Ctl → Chan
  | .sln => v.sln | .act => v.act | .vis => v.vis

/-- A request, or an update of the whole view by its group (`Group::update`, group.cpp:600-620). -/
inductive Op
  | mod (m : Member) (x : Rat)
  | set (m : Member) (x : Rat)
  | update

def View.update (A : Arith) (v : View) : View :=
  { v with sln := v.sln.update A, act := v.act.update A, vis := v.vis.update A,
           res := v.res.update A }

def step (A : Arith) (v : View) : Op → View
  | .mod m x => v.mod A m x
  | .set m x => v.set A m x
  | .update => v.update A

def run (A : Arith) (v : View) (ops : List Op) : View := ops.foldl (step A) v

/-- An arithmetic whose stores keep numbers of [0,1] in [0,1]. -/
def KeepsUnit (A : Arith) : Prop := ∀ q, 0 ≤ q → q ≤ 1 → 0 ≤ A.store q ∧ A.store q ≤ 1

theorem keepsUnit_exact : KeepsUnit exact := fun _ h1 h2 => ⟨h1, h2⟩
theorem keepsUnit_single : KeepsUnit single := fun _ h1 h2 =>
  ⟨(store_bounds h1).1, (store_bounds h1).2.trans h2⟩

theorem clamp_eq (x : Rat) : clamp x = max 0 (min 1 x) := by
  unfold clamp
  split
  · rw [max_eq_left]; exact (min_le_right _ _).trans (by linarith)
  · split
    · rw [min_eq_left (by linarith), max_eq_right (by norm_num)]
    · rw [min_eq_right (by linarith), max_eq_right (by linarith)]

theorem clamp_unit (x : Rat) : 0 ≤ clamp x ∧ clamp x ≤ 1 := by
  rw [clamp_eq]
  exact ⟨le_max_left _ _, max_le (by norm_num) (min_le_left _ _)⟩

theorem clamp_id {x : Rat} (h0 : 0 ≤ x) (h1 : x ≤ 1) : clamp x = x := by
  rw [clamp_eq, min_eq_right h1, max_eq_right h0]

/-- C21: whatever the requests and updates, and in single precision as well as in exact
arithmetic, saliency, activation and visibility stay in [0,1]. -/
theorem C21_bounds (A : Arith) (hA : A = exact ∨ A = single) (v : View)
    (h : ∀ c, 0 ≤ (v.chan c).val ∧ (v.chan c).val ≤ 1) (ops : List Op) (c : Ctl) :
    0 ≤ ((run A v ops).chan c).val ∧ ((run A v ops).chan c).val ≤ 1 := by
  have hk : KeepsUnit A := by
    rcases hA with rfl | rfl
    · exact keepsUnit_exact
    · exact keepsUnit_single
  have upd : ∀ c : Chan, 0 ≤ c.val ∧ c.val ≤ 1 → 0 ≤ (c.update A).val ∧ (c.update A).val ≤ 1 := by
    intro c hc
    unfold Chan.update
    split
    · obtain ⟨a, b⟩ := clamp_unit (A.add c.val (A.div c.acc c.changes))
      exact hk _ a b
    · exact hc
  induction ops generalizing v with
  | nil => exact h c
  | cons o l ih =>
    refine ih (step A v o) ?_
    intro c
    have hc := h c
    cases o with
    | mod m x => cases m <;> cases c <;> exact hc
    | set m x => cases m <;> cases c <;> exact hc
    | update => cases c <;> exact upd _ hc

/-- The same for the thresholds of groups, which use the same scheme: the new threshold is in
[0,1] whenever a change was requested. -/
theorem C21_group_thresholds (A : Arith) (hA : A = exact ∨ A = single) (c : Chan)
    (h : 0 ≤ c.val ∧ c.val ≤ 1 ∨ 0 < c.changes) :
    0 ≤ (c.updateThr A).val ∧ (c.updateThr A).val ≤ 1 := by
  have hk : KeepsUnit A := by
    rcases hA with rfl | rfl
    · exact keepsUnit_exact
    · exact keepsUnit_single
  unfold Chan.updateThr
  split
  · obtain ⟨a, b⟩ := clamp_unit (A.add c.val (A.div c.acc c.changes))
    exact hk _ a b
  · rename_i hn
    rcases h with h | h
    · exact h
    · exact absurd h hn

/-- A request made to a view: relative or absolute, of one member. -/
structure Request where
  absolute : Bool
  member : Member
  x : Rat

def Request.op (r : Request) : Op := if r.absolute then .set r.member r.x else .mod r.member r.x

/-- The change a request asks for, the control value being `v`. -/
def Request.change (v : Rat) (r : Request) : Rat := if r.absolute then r.x - v else r.x

theorem chan_request (v : View) (r : Request) (c : Ctl) :
    (step exact v r.op).chan c =
      if r.member = c.member then
        { v.chan c with acc := (v.chan c).acc + r.change (v.chan c).val
                        changes := (v.chan c).changes + 1 }
      else v.chan c := by
  obtain ⟨a, m, x⟩ := r
  cases a <;> cases m <;> cases c <;>
    simp [step, Request.op, Request.change, View.mod, View.set, View.chan, Ctl.member, Chan.mod,
      Chan.set, exact]

theorem chan_requests (v : View) (rs : List Request) (c : Ctl) :
    (run exact v (rs.map Request.op)).chan c =
      { val := (v.chan c).val
        acc := (v.chan c).acc +
          ((rs.filter (·.member = c.member)).map (Request.change (v.chan c).val)).sum
        changes := (v.chan c).changes + (rs.filter (·.member = c.member)).length } := by
  induction rs generalizing v with
  | nil => simp [run]
  | cons r l ih =>
    have := ih (step exact v r.op)
    rw [run, List.map_cons, List.foldl_cons]
    rw [run] at this
    rw [this, chan_request]
    by_cases hm : r.member = c.member
    · simp only [hm, if_true, decide_true, List.filter_cons_of_pos, List.map_cons, List.sum_cons,
        List.length_cons, Chan.mk.injEq, true_and]
      exact ⟨by ring, by omega⟩
    · simp [hm]

/-- The change applied by the first update is the mean of the changes requested — a request for an absolute value asking for the difference to the present value — limited to
[0,1]; without request the value does not change. -/
theorem mean_first (v : View) (rs : List Request) (c : Ctl)
    (h : 0 ≤ (v.chan c).val ∧ (v.chan c).val ≤ 1) (hp : (v.chan c).acc = 0 ∧ (v.chan c).changes = 0) :
    let asked := (rs.filter (·.member = c.member)).map (Request.change (v.chan c).val)
    ((run exact v (rs.map Request.op ++ [.update])).chan c).val =
      if asked = [] then (v.chan c).val
      else max 0 (min 1 ((v.chan c).val + asked.sum / asked.length)) := by
  intro asked
  have e : ((run exact v (rs.map Request.op ++ [.update])).chan c).val =
      (((run exact v (rs.map Request.op)).chan c).update exact).val := by
    rw [run, List.foldl_append]
    simp only [List.foldl_cons, List.foldl_nil, step]
    cases c <;> rfl
  rw [e, chan_requests, hp.1, hp.2]
  have hlen : (rs.filter (·.member = c.member)).length = asked.length := by
    simp [asked]
  rw [hlen]
  unfold Chan.update
  simp only [zero_add]
  by_cases ha : asked = []
  · rw [if_neg (by simp [ha]), if_pos ha]
  · rw [if_neg ha]
    have hl : 0 < asked.length := List.length_pos_iff.mpr ha
    by_cases hs : asked.sum = 0
    · rw [if_neg (by simp only [not_and, not_not]; exact fun _ => hs)]
      rw [hs, zero_div, add_zero, ← clamp_eq, clamp_id h.1 h.2]
    · rw [if_pos ⟨hl, hs⟩]
      simp only [exact, id, clamp_eq]; rfl

/-- Nothing is pending after an update. -/
theorem pending_update (v : View) (c : Ctl) :
    ((step exact v .update).chan c).acc = 0 ∧ ((step exact v .update).chan c).changes = 0 := by
  have key : ∀ d : Chan, (d.update exact).acc = 0 ∧ (d.update exact).changes = 0 := by
    intro d; unfold Chan.update; split <;> exact ⟨rfl, rfl⟩
  cases c
  · exact key v.sln
  · exact key v.act
  · exact key v.vis

/-- C21: the change applied by an update is the mean of the changes requested since the previous one (or
since the view was made), whatever happened before — a request for an absolute value asking for the
difference to the present value — limited to [0,1]; without request the value does not change. -/
theorem C21_mean (v : View) (past : List Op) (rs : List Request) (c : Ctl)
    (h : ∀ c, 0 ≤ (v.chan c).val ∧ (v.chan c).val ≤ 1)
    (hp : ∀ c, (v.chan c).acc = 0 ∧ (v.chan c).changes = 0) (hpast : past = [] ∨ past.getLast? = some .update) :
    let w := run exact v past
    let asked := (rs.filter (·.member = c.member)).map (Request.change (w.chan c).val)
    ((run exact v (past ++ rs.map Request.op ++ [.update])).chan c).val =
      if asked = [] then (w.chan c).val
      else max 0 (min 1 ((w.chan c).val + asked.sum / asked.length)) := by
  intro w asked
  have hw : ((run exact v past).chan c).acc = 0 ∧ ((run exact v past).chan c).changes = 0 := by
    rcases hpast with rfl | hl
    · exact hp c
    · obtain ⟨l, rfl⟩ := List.getLast?_eq_some_iff.1 hl
      rw [run, List.foldl_append]
      exact pending_update _ c
  have := mean_first (run exact v past) rs c (C21_bounds exact (.inl rfl) v h past c) hw
  rw [List.append_assoc]
  simp only [run, List.foldl_append] at this ⊢
  exact this

/-- C21: a single request for an absolute value of [0,1] is granted exactly. -/
theorem C21_single_set (v : View) (c : Ctl) (x : Rat) (hx : 0 ≤ x ∧ x ≤ 1)
    (h : 0 ≤ (v.chan c).val ∧ (v.chan c).val ≤ 1) (hp : (v.chan c).acc = 0 ∧ (v.chan c).changes = 0) :
    ((run exact v [.set c.member x, .update]).chan c).val = x := by
  have := mean_first v [⟨true, c.member, x⟩] c h hp
  simp only [List.map_cons, List.map_nil, Request.op, if_true, List.cons_append, List.nil_append,
    decide_true, List.filter_cons_of_pos, List.filter_nil, Request.change, List.cons_ne_nil,
    if_false, List.sum_cons, List.sum_nil, List.length_cons, List.length_nil] at this
  rw [this]
  norm_num
  rw [min_eq_right hx.2, max_eq_right hx.1]

/-- Saliency 1/2, three requests (+1/2, -1/4, set to 1), one for another member: the mean change is
1/4. -/
def exView : View := ⟨⟨1 / 2, 0, 0⟩, ⟨1, 0, 0⟩, ⟨0, 0, 0⟩, ⟨.fin 3, 0, 0⟩, 0, 0⟩

example : ((run exact exView [.mod .sln (1 / 2), .mod .sln (-1 / 4), .mod .act (-1 / 2),
    .set .sln 1, .update]).chan .sln).val = 3 / 4 := by
  norm_num [run, step, View.mod, View.set, View.update, View.chan, Chan.mod, Chan.set, Chan.update,
    exact, exView, clamp]

/-! ## C22 -/

/-- The view's resilience after `k` updates without requests. -/
def afterUpdates (A : Arith) (r : Res) (k : Nat) : Res := (Res.update A)^[k] r

/-- The view disappears at update number `n`, and not before. -/
def DiesAt (A : Arith) (r : Res) (n : Nat) : Prop :=
  kept false (afterUpdates A r n) = false ∧ ∀ k, k < n → kept false (afterUpdates A r k) = true

/-- C22, full statement, in the processor's arithmetic: a view injected with resilience
`n` (a positive `int32`) disappears at the `n`-th update exactly. -/
def C22_full : Prop :=
  ∀ n : Nat, 0 < n → n < 2 ^ 31 → DiesAt single (newRes single n) n

theorem update_fin (A : Arith) (n : Nat) (hs : A.sub ((n + 1 : Nat) : Rat) 1 = n)
    (ht : A.store n = n) : Res.update A ⟨.fin ((n + 1 : Nat) : Rat), 0, 0⟩ = ⟨.fin n, 0, 0⟩ := by
  simp only [Res.update, gt_iff_lt, lt_irrefl, false_and, if_false, hs]
  rw [if_neg (by have : (0 : Rat) ≤ n := Nat.cast_nonneg n
                 linarith), ht]

theorem dies_at (A : Arith) (N : Nat) (hs : ∀ n, n < N → A.sub ((n + 1 : Nat) : Rat) 1 = n)
    (ht : ∀ n, n ≤ N → A.store ((n : Nat) : Rat) = n) :
    ∀ n, n ≤ N → DiesAt A ⟨.fin n, 0, 0⟩ n := by
  have key : ∀ k n, k ≤ n → n ≤ N → afterUpdates A ⟨.fin n, 0, 0⟩ k = ⟨.fin ((n - k : Nat) : Rat), 0, 0⟩ := by
    intro k
    induction k with
    | zero => intro n _ _; rfl
    | succ k ih =>
      intro n hk hn
      obtain ⟨m, rfl⟩ : ∃ m, n = m + 1 := ⟨n - 1, by omega⟩
      rw [afterUpdates, Function.iterate_succ, Function.comp, update_fin A m (hs m (by omega)) (ht m (by omega))]
      have := ih m (by omega) (by omega)
      rw [afterUpdates] at this
      rw [this]; congr 3; omega
  intro n hn
  refine ⟨?_, ?_⟩
  · rw [key n n (le_refl _) hn]; simp [kept]
  · intro k hk
    rw [key k n (by omega) hn]
    simp only [kept, Bool.not_false, Bool.true_and, decide_eq_true_eq]
    exact_mod_cast (by omega : 0 < n - k)

/-- The full statement fails for large resiliences: a view of resilience 16777220 is never
deleted, since subtracting one rounds back to the same number. -/
theorem C22_resilience_violated :
    ¬ C22_full ∧ ∀ k, kept false (afterUpdates single (newRes single 16777220) k) = true := by
  have hnew : newRes single 16777220 = ⟨.fin 16777220, 0, 0⟩ := by
    have e : store (fl ((16777220 : Rat))) = 16777220 := by
      have l2 : Int.log 2 (16777220 : Rat) = 24 := by
        rw [show (16777220 : Rat) = ((16777220 : Nat) : Rat) by norm_num, Int.log_natCast,
          Nat.log_eq_of_pow_le_of_lt_pow (m := 24) (by norm_num) (by norm_num)]; norm_num
      have u2 : ulp 16777220 = 2 := by
        unfold ulp; rw [abs_of_nonneg (by norm_num), l2]; norm_num
      have : fl 16777220 = 16777220 := by
        unfold fl
        rw [if_neg (by norm_num), u2, show (16777220 : Rat) / 2 = ((8388610 : Int) : Rat) by norm_num,
          roundEven_int]; norm_num
      rw [this, sub_one_stuck.2]
    have : single.store (single.add (((16777220 : Int)) : Rat) 0) = 16777220 := by
      show store (fl _) = _
      rw [← e]; norm_num
    simp only [newRes, this]
    norm_num
  have hfix : Res.update single ⟨.fin 16777220, 0, 0⟩ = ⟨.fin 16777220, 0, 0⟩ := by
    have hs : single.sub 16777220 1 = 16777220 := sub_one_stuck.1
    have ht : single.store 16777220 = 16777220 := sub_one_stuck.2
    simp only [Res.update, gt_iff_lt, lt_irrefl, false_and, if_false, hs]
    rw [if_neg (by norm_num), ht]
  have hall : ∀ k, kept false (afterUpdates single (newRes single 16777220) k) = true := by
    intro k
    rw [hnew, afterUpdates, Function.iterate_fixed hfix]
    simp [kept]
  refine ⟨?_, hall⟩
  intro hf
  have := (hf 16777220 (by norm_num) (by norm_num)).1
  rw [show (((16777220 : Nat)) : Int) = 16777220 by norm_num, hall] at this
  cases this

/-- C22: the view of an object invalidated before update `m` disappears at that update, if not before. -/
theorem C22_invalidated (A : Arith) (r : Res) (n m : Nat) (h : DiesAt A r n) (hm : 0 < m) :
    kept (decide (m ≤ min n m)) (afterUpdates A r (min n m)) = false ∧
    ∀ k, k < min n m → kept (decide (m ≤ k)) (afterUpdates A r k) = true := by
  constructor
  · by_cases e : m ≤ n
    · rw [Nat.min_eq_right e]; simp [kept]
    · rw [Nat.min_eq_left (by omega), decide_eq_false e]; exact h.1
  · intro k hk
    rw [decide_eq_false (by omega)]
    exact h.2 k (by omega)

/-- C22, proved part: a view of resilience `n` disappears at the `n`-th update exactly, for `n` up
to 2^23 in the processor's arithmetic and for all `n` in exact arithmetic; an infinitely resilient
view (negative argument) never does, whatever the requests. Missing: larger resiliences, where the
statement is false. -/
theorem C22_resilience_partial :
    (∀ n : Nat, 0 < n → n ≤ 2 ^ 23 → DiesAt single (newRes single n) n) ∧
    (∀ n : Nat, 0 < n → DiesAt exact (newRes exact n) n) ∧
    (∀ (A : Arith) (n : Int) (ops : List Op) (v : View), n < 0 → v.res = newRes A n →
      kept false (run A v ops).res = true) := by
  refine ⟨?_, ?_, ?_⟩
  · intro n _ hn
    have hnew : newRes single n = ⟨.fin n, 0, 0⟩ := by
      have : single.store (single.add (((n : Int)) : Rat) 0) = n := by
        show store (fl _) = _
        rw [add_zero, Int.cast_natCast, fl_nat (by omega), store_nat hn]
      simp only [newRes, this, if_neg (by omega : ¬ (n : Int) < 0)]
    rw [hnew]
    refine dies_at single (2 ^ 23) ?_ ?_ n hn
    · intro m hm
      show fl _ = _
      rw [show ((m + 1 : Nat) : Rat) - 1 = m by push_cast; ring, fl_nat (by omega)]
    · intro m hm; exact store_nat hm
  · intro n _
    have hnew : newRes exact n = ⟨.fin n, 0, 0⟩ := by
      simp only [newRes, exact, id, if_neg (by omega : ¬ (n : Int) < 0)]
      simp
    rw [hnew]
    refine dies_at exact n ?_ ?_ n (le_refl _)
    · intro m _; show ((m + 1 : Nat) : Rat) - 1 = m; push_cast; ring
    · intro m _; rfl
  · intro A n ops v hn hv
    have h0 : v.res.val = .inf := by rw [hv]; simp [newRes, hn]
    have key : ∀ ops v, v.res.val = ResVal.inf → (run A v ops).res.val = .inf := by
      intro ops
      induction ops with
      | nil => intro v hv; exact hv
      | cons o l ih =>
        intro v hv
        refine ih (step A v o) ?_
        cases o with
        | mod m x => cases m <;> simp [step, View.mod, Res.mod, hv]
        | set m x => cases m <;> simp [step, View.set, Res.set, hv]
        | update => simp [step, View.update, Res.update, hv]
    simp [kept, key ops v h0]

/-! ## C23 -/

/-- Length of the run of values satisfying `p` at the end of a history. -/
def tailRun (p : Rat → Bool) (vs : List Rat) : Nat := (vs.reverse.takeWhile p).length

/-- A notification is due when the run of qualifying values is a (positive) multiple of the
configured number of periods. -/
def Due (prd : Nat) (p : Rat → Bool) (vs : List Rat) : Prop :=
  0 < tailRun p vs ∧ tailRun p vs % prd = 0

/-- C23, full statement: at each update the notification of a high (low) value is raised exactly
when the value has been above (below) the threshold for the configured number of consecutive
updates (counted anew after each notification). -/
def C23_full : Prop :=
  ∀ (low high : Rat) (prd : Nat) (vs : List Rat) (v : Rat), low ≤ high → 0 < prd →
    (lastNtf low high prd vs v = some .high ↔ Due prd (fun x => decide (x > high)) (vs ++ [v])) ∧
    (lastNtf low high prd vs v = some .low ↔ Due prd (fun x => decide (x < low)) (vs ++ [v]))

theorem tailRun_append (p : Rat → Bool) (vs : List Rat) (v : Rat) :
    tailRun p (vs ++ [v]) = if p v then tailRun p vs + 1 else 0 := by
  simp only [tailRun, List.reverse_append, List.reverse_cons, List.reverse_nil, List.nil_append,
    List.singleton_append, List.takeWhile_cons]
  split <;> simp_all

theorem counters_append (low high prd : Rat) (vs : List Rat) (v : Rat) :
    counters low high prd (vs ++ [v]) = (period low high prd (counters low high prd vs) v).1 := by
  simp [counters, List.foldl_append]

/-- The full statement fails: with thresholds 1/4 and 3/4 and two periods, the history
high, low, high raises a notification of a high value after one update above. -/
theorem C23_notifications_violated :
    ¬ C23_full ∧ lastNtf (1/4) (3/4) 2 [1, 0] 1 = some .high := by
  have e : lastNtf (1/4) (3/4) 2 [1, 0] 1 = some .high := by
    norm_num [lastNtf, counters, period, countPeriods, notify]
  refine ⟨?_, e⟩
  intro hf
  have := ((hf (1/4) (3/4) 2 [1, 0] 1 (by norm_num) (by norm_num)).1.mp (by exact_mod_cast e)).2
  norm_num [tailRun, List.takeWhile] at this

/-- `k mod prd`, next value. -/
theorem mod_succ (prd k : Nat) (hp : 0 < prd) :
    (k + 1) % prd = if k % prd + 1 = prd then 0 else k % prd + 1 := by
  have h1 := Nat.mod_lt k hp
  rw [Nat.add_mod]
  by_cases h : prd = 1
  · subst h; simp [Nat.mod_one]
  · rw [Nat.mod_eq_of_lt (by omega : 1 < prd)]
    split
    · rename_i he; rw [he, Nat.mod_self]
    · rw [Nat.mod_eq_of_lt (by omega)]

/-- No value below the low threshold comes immediately after one above the high threshold. -/
def NoDrop (low high : Rat) (vs : List Rat) : Prop :=
  ∀ pre post a b, vs = pre ++ a :: b :: post → a > high → ¬ b < low

theorem counters_spec (low high : Rat) (prd : Nat) (hlh : low ≤ high) (hp : 0 < prd) (vs : List Rat) :
    (counters low high prd vs).1 = tailRun (fun x => decide (x < low)) vs % prd ∧
    (counters low high prd vs).2 < prd ∧
    (NoDrop low high vs →
      (counters low high prd vs).2 = tailRun (fun x => decide (x > high)) vs % prd) ∧
    (∀ v, (lastNtf low high prd vs v = some .low ↔
        Due prd (fun x => decide (x < low)) (vs ++ [v]))) ∧
    (∀ v, NoDrop low high (vs ++ [v]) → (lastNtf low high prd vs v = some .high ↔
        Due prd (fun x => decide (x > high)) (vs ++ [v]))) := by
  induction vs using List.reverseRecOn with
  | nil =>
    have h0 : counters low high prd [] = (0, 0) := rfl
    refine ⟨by simp [h0, tailRun], by simpa [h0] using hp, by simp [h0, tailRun], ?_, ?_⟩
    · intro v
      rw [Due, tailRun_append]
      simp only [lastNtf, h0, period, countPeriods, notify, decide_eq_true_eq]
      have t0 : tailRun (fun x => decide (x < low)) [] = 0 := rfl
      rw [t0]
      have hp' : ¬ ((0 : Nat) : Rat) = (prd : Rat) := by
        intro h; have : 0 = prd := by exact_mod_cast h
        omega
      by_cases hl : v < low
      · simp only [hl, if_true, hp', if_false, zero_add]
        by_cases h1 : prd = 1
        · subst h1; simp
        · have : ¬ ((1 : Nat) : Rat) = prd := by
            intro h; have : 1 = prd := by exact_mod_cast h
            omega
          rw [if_neg this, Nat.mod_eq_of_lt (by omega)]; simp
      · simp only [hl, if_false, lt_irrefl, false_and, iff_false]
        split
        · split <;> simp
        · simp
    · intro v _
      rw [Due, tailRun_append]
      simp only [lastNtf, h0, period, countPeriods, notify, decide_eq_true_eq]
      have t0 : tailRun (fun x => decide (x > high)) [] = 0 := rfl
      rw [t0]
      have hp' : ¬ ((0 : Nat) : Rat) = (prd : Rat) := by
        intro h; have : 0 = prd := by exact_mod_cast h
        omega
      by_cases hl : v < low
      · have : ¬ v > high := by linarith
        simp only [hl, if_true, hp', if_false, zero_add, this, lt_irrefl, false_and, iff_false]
        split <;> simp
      · simp only [hl, if_false]
        by_cases hh : v > high
        · simp only [hh, if_true, zero_add]
          by_cases h1 : prd = 1
          · subst h1; simp
          · have : ¬ ((1 : Nat) : Rat) = prd := by
              intro h; have : 1 = prd := by exact_mod_cast h
              omega
            rw [if_neg this, if_neg hp', Nat.mod_eq_of_lt (by omega)]; simp
        · simp only [hh, if_false, hp', lt_irrefl, false_and, iff_false]; simp
  | append_singleton vs w ih =>
    obtain ⟨i1, i2, i3, _, _⟩ := ih
    -- one step on the counters, from any history
    have stepSpec : ∀ (us : List Rat) (v : Rat),
        (counters low high prd us).1 = tailRun (fun x => decide (x < low)) us % prd →
        (counters low high prd us).2 < prd →
        (NoDrop low high us →
          (counters low high prd us).2 = tailRun (fun x => decide (x > high)) us % prd) →
        (counters low high prd (us ++ [v])).1 =
          tailRun (fun x => decide (x < low)) (us ++ [v]) % prd ∧
        (counters low high prd (us ++ [v])).2 < prd ∧
        (NoDrop low high (us ++ [v]) → (counters low high prd (us ++ [v])).2 =
          tailRun (fun x => decide (x > high)) (us ++ [v]) % prd) ∧
        (lastNtf low high prd us v = some .low ↔
          Due prd (fun x => decide (x < low)) (us ++ [v])) ∧
        (NoDrop low high (us ++ [v]) → (lastNtf low high prd us v = some .high ↔
          Due prd (fun x => decide (x > high)) (us ++ [v]))) := by
      intro us v j1 j2 j3
      have hdrop : NoDrop low high (us ++ [v]) → NoDrop low high us := by
        intro hd pre post a b he
        exact hd pre (post ++ [v]) a b (by rw [he]; simp)
      rw [counters_append, Due, Due, tailRun_append, tailRun_append]
      simp only [lastNtf, period, countPeriods, notify, decide_eq_true_eq]
      generalize hl : (counters low high prd us).1 = cl at *
      generalize hh : (counters low high prd us).2 = ch at *
      have hcl : cl < prd := by rw [j1]; exact Nat.mod_lt _ hp
      by_cases c1 : v < low
      · have c2 : ¬ v > high := by linarith
        have n1 : ¬ (ch : Rat) = prd := by
          intro h; have : ch = prd := by exact_mod_cast h
          omega
        simp only [c1, c2, if_true, if_false, n1]
        have hhi : NoDrop low high (us ++ [v]) → ch = 0 := by
          intro hd
          rw [j3 (hdrop hd)]
          have : tailRun (fun x => decide (x > high)) us = 0 := by
            rcases List.eq_nil_or_concat us with rfl | ⟨us', u, rfl⟩
            · rfl
            · rw [List.concat_eq_append, tailRun_append, if_neg]
              simp only [decide_eq_true_eq]
              intro hu
              exact hd us' [] u v (by simp) hu c1
          rw [this, Nat.zero_mod]
        have hm := mod_succ prd (tailRun (fun x => decide (x < low)) us) hp
        rw [← j1] at hm
        by_cases c3 : cl + 1 = prd
        · rw [if_pos (by exact_mod_cast c3)]
          rw [if_pos c3] at hm
          refine ⟨hm.symm, j2, ?_, by simp [hm], by simp⟩
          intro hd; simp [hhi hd]
        · rw [if_neg (by intro h; exact c3 (by exact_mod_cast h))]
          rw [if_neg c3] at hm
          refine ⟨hm.symm, j2, ?_, by simp [hm], by simp⟩
          intro hd; simp [hhi hd]
      · simp only [c1, if_false]
        have p0 : ¬ ((0 : Nat) : Rat) = prd := by
          intro h; have : 0 = prd := by exact_mod_cast h
          omega
        by_cases c2 : v > high
        · simp only [c2, if_true]
          have hm := mod_succ prd (tailRun (fun x => decide (x > high)) us) hp
          by_cases c3 : ch + 1 = prd
          · rw [if_pos (by exact_mod_cast c3)]
            refine ⟨by simp, hp, ?_, by simp, ?_⟩
            · intro hd
              rw [← j3 (hdrop hd), if_pos c3] at hm; exact hm.symm
            · intro hd
              rw [← j3 (hdrop hd), if_pos c3] at hm; simp [hm]
          · rw [if_neg (by intro h; exact c3 (by exact_mod_cast h)), if_neg p0]
            refine ⟨by simp, by show ch + 1 < prd; omega, ?_, by simp, ?_⟩
            · intro hd
              rw [← j3 (hdrop hd), if_neg c3] at hm; exact hm.symm
            · intro hd
              rw [← j3 (hdrop hd), if_neg c3] at hm; simp [hm]
        · simp only [c2, if_false, p0]
          refine ⟨by simp, hp, by simp, by simp, by simp⟩
    obtain ⟨k1, k2, k3, _, _⟩ := stepSpec vs w i1 i2 i3
    refine ⟨k1, k2, k3, ?_, ?_⟩
    · intro v; exact (stepSpec (vs ++ [w]) v k1 k2 k3).2.2.2.1
    · intro v; exact (stepSpec (vs ++ [w]) v k1 k2 k3).2.2.2.2

/-- C23, proved part: low-value notifications are exact for all histories; high-value
notifications are exact for all histories in which no value below the low threshold comes
immediately after one above the high threshold. Missing: histories with such drops, where the
statement is false. -/
theorem C23_notifications_partial (low high : Rat) (prd : Nat) (vs : List Rat) (v : Rat)
    (hlh : low ≤ high) (hp : 0 < prd) :
    (lastNtf low high prd vs v = some .low ↔ Due prd (fun x => decide (x < low)) (vs ++ [v])) ∧
    (NoDrop low high (vs ++ [v]) →
      (lastNtf low high prd vs v = some .high ↔ Due prd (fun x => decide (x > high)) (vs ++ [v]))) :=
  ⟨(counters_spec low high prd hlh hp vs).2.2.2.1 v, (counters_spec low high prd hlh hp vs).2.2.2.2 v⟩

/-- A history that meets the hypothesis and raises a notification at its fourth update. -/
example : lastNtf (1/4) (3/4) 2 [0, 1/2, 1] 1 = some .high ∧
    NoDrop (1/4) (3/4) [0, 1/2, 1, 1] := by
  constructor
  · norm_num [lastNtf, counters, period, countPeriods, notify]
  · intro pre post a b he ha
    match pre with
    | [] => simp at he; obtain ⟨rfl, rfl, _⟩ := he; norm_num at ha
    | [_] => simp at he; obtain ⟨_, rfl, rfl, _⟩ := he; norm_num at ha
    | [_, _] => simp at he; obtain ⟨_, _, rfl, rfl, _⟩ := he; norm_num
    | _ :: _ :: _ :: [] => simp at he
    | _ :: _ :: _ :: _ :: l => simp at he

/-! ## C24 -/

/-- `m` is the largest (smallest) element. -/
def IsMax (vs : List Rat) (m : Rat) : Prop := m ∈ vs ∧ ∀ x ∈ vs, x ≤ m
def IsMin (vs : List Rat) (m : Rat) : Prop := m ∈ vs ∧ ∀ x ∈ vs, m ≤ x

/-- C24, full statement: the published average, highest and lowest are the mean, maximum and
minimum of the values visited. -/
def C24_full : Prop :=
  ∀ vs : List Rat, vs ≠ [] → (∀ x ∈ vs, 0 ≤ x ∧ x ≤ 1) →
    ((stats exact vs).publish exact).1 = vs.sum / vs.length ∧
    IsMax vs ((stats exact vs).publish exact).2.1 ∧ IsMin vs ((stats exact vs).publish exact).2.2

/-- The full statement fails: a group with one view of saliency 1/2 publishes a lowest saliency of
1; with two views, 1/4 visited before 1/2, also 1. -/
theorem C24_statistics_violated :
    ¬ C24_full ∧ ((stats exact [1/2]).publish exact).2.2 = 1 ∧
    ((stats exact [1/4, 1/2]).publish exact).2.2 = 1 := by
  have e : ((stats exact [1/2]).publish exact).2.2 = 1 := by
    norm_num [stats, Stats.visit, Stats.reset, Stats.publish, exact]
  refine ⟨?_, e, by norm_num [stats, Stats.visit, Stats.reset, Stats.publish, exact]⟩
  intro hf
  have := (hf [1/2] (by simp) (by simp; norm_num)).2.2.1
  rw [e] at this
  norm_num at this

theorem stats_append (A : Arith) (vs : List Rat) (v : Rat) :
    stats A (vs ++ [v]) = (stats A vs).visit A v := by simp [stats]

theorem stats_spec (vs : List Rat) :
    (stats exact vs).avg = vs.sum ∧ (stats exact vs).updates = vs.length ∧
    (stats exact vs).high = vs.foldl max 0 := by
  induction vs using List.reverseRecOn with
  | nil => simp [stats, Stats.reset]
  | append_singleton vs v ih =>
    obtain ⟨a, b, c⟩ := ih
    rw [stats_append]
    simp only [Stats.visit, b, c, List.sum_append, List.sum_cons, List.sum_nil, add_zero,
      List.length_append, List.length_cons, List.length_nil, List.foldl_append, List.foldl_cons,
      List.foldl_nil]
    refine ⟨by rw [← a]; rfl, trivial, ?_⟩
    split
    · rename_i h; rw [max_eq_right (le_of_lt h)]
    · rename_i h; rw [max_eq_left (not_lt.mp h)]

theorem foldl_max_spec (vs : List Rat) (b : Rat) :
    b ≤ vs.foldl max b ∧ (∀ x ∈ vs, x ≤ vs.foldl max b) ∧ (vs.foldl max b = b ∨ vs.foldl max b ∈ vs) := by
  induction vs generalizing b with
  | nil => simp
  | cons a l ih =>
    obtain ⟨h1, h2, h3⟩ := ih (max b a)
    simp only [List.foldl_cons]
    refine ⟨(le_max_left _ _).trans h1, ?_, ?_⟩
    · intro x hx
      rcases List.mem_cons.mp hx with rfl | hx
      · exact (le_max_right _ _).trans h1
      · exact h2 x hx
    · rcases h3 with h3 | h3
      · rcases max_choice b a with h | h
        · left; rw [h3, h]
        · right; rw [h3, h]; simp
      · right; exact List.mem_cons_of_mem _ h3

/-- `low` never exceeds a value that was not the largest so far when visited, and is one of the
values or 1. -/
theorem low_spec (vs : List Rat) :
    (∀ pre post x, vs = pre ++ x :: post → (x ≤ 0 ∨ ∃ y ∈ pre, x ≤ y) → (stats exact vs).low ≤ x) ∧
    ((stats exact vs).low = 1 ∨ (stats exact vs).low ∈ vs) ∧ (stats exact vs).low ≤ 1 := by
  induction vs using List.reverseRecOn with
  | nil =>
    refine ⟨?_, Or.inl rfl, le_refl _⟩
    intro pre post x he; simp at he
  | append_singleton vs v ih =>
    obtain ⟨a, b, c⟩ := ih
    rw [stats_append]
    have hhigh := (stats_spec vs).2.2
    obtain ⟨f1, f2, f3⟩ := foldl_max_spec vs 0
    have hle : ((stats exact vs).visit exact v).low ≤ (stats exact vs).low := by
      simp only [Stats.visit]
      split
      · exact le_refl _
      · split
        · rename_i h; exact le_of_lt h
        · exact le_refl _
    refine ⟨?_, ?_, hle.trans c⟩
    · intro pre post x he hx
      rcases List.eq_nil_or_concat post with rfl | ⟨post', w, rfl⟩
      · have := List.append_inj' he (by simp)
        obtain ⟨rfl, h2⟩ := this
        simp only [List.cons.injEq, and_true] at h2
        subst h2
        have hnr : ¬ v > (stats exact vs).high := by
          rw [hhigh]
          rcases hx with hx | ⟨y, hy, hxy⟩
          · linarith
          · have := f2 y hy; linarith
        simp only [Stats.visit, hnr, if_false]
        split
        · exact le_refl _
        · rename_i h; exact not_lt.mp h
      · rw [List.concat_eq_append, ← List.cons_append, ← List.append_assoc] at he
        have := List.append_inj' he (by simp)
        exact hle.trans (a pre post' x this.1 hx)
    · simp only [Stats.visit]
      split
      · rcases b with b | b
        · left; exact b
        · right; simp [b]
      · split
        · right; simp
        · rcases b with b | b
          · left; exact b
          · right; simp [b]

/-- C24, proved part: the average is the mean and the highest is the maximum, for all groups and
visiting orders; the lowest is the minimum provided the minimum is zero or is visited after some
value at least as large. Missing: the minimum visited only as the largest so far, where the
statement is false. -/
theorem C24_statistics_partial (vs : List Rat) (hne : vs ≠ []) (hu : ∀ x ∈ vs, 0 ≤ x ∧ x ≤ 1) :
    ((stats exact vs).publish exact).1 = vs.sum / vs.length ∧
    IsMax vs ((stats exact vs).publish exact).2.1 ∧
    ((∃ pre x post, vs = pre ++ x :: post ∧ (∀ y ∈ vs, x ≤ y) ∧ (x = 0 ∨ ∃ y ∈ pre, x ≤ y)) →
      IsMin vs ((stats exact vs).publish exact).2.2) := by
  obtain ⟨s1, s2, s3⟩ := stats_spec vs
  obtain ⟨f1, f2, f3⟩ := foldl_max_spec vs 0
  have hl : vs.length ≠ 0 := by simpa using hne
  refine ⟨?_, ⟨?_, ?_⟩, ?_⟩
  · show (if (stats exact vs).updates ≠ 0 then (stats exact vs).avg / (stats exact vs).updates
      else (stats exact vs).avg) = _
    rw [s1, s2, if_pos hl]
  · show (stats exact vs).high ∈ vs
    rw [s3]
    rcases f3 with f3 | f3
    · obtain ⟨x, hx⟩ := List.exists_mem_of_ne_nil vs hne
      have h1 := f2 x hx
      have h2 := (hu x hx).1
      rw [f3] at h1 ⊢
      rwa [← le_antisymm h1 h2]
    · exact f3
  · intro x hx
    show x ≤ (stats exact vs).high
    rw [s3]; exact f2 x hx
  · rintro ⟨pre, x, post, he, hmin, hx⟩
    obtain ⟨l1, l2, l3⟩ := low_spec vs
    have hle := l1 pre post x he (by
      rcases hx with hx | hx
      · left; exact hx.le
      · right; exact hx)
    have hxm : x ∈ vs := by rw [he]; simp
    show (stats exact vs).low ∈ vs ∧ ∀ y ∈ vs, (stats exact vs).low ≤ y
    refine ⟨?_, fun y hy => hle.trans (hmin y hy)⟩
    rcases l2 with l2 | l2
    · have h1 := (hu x hxm).2
      rw [l2] at hle ⊢
      rwa [le_antisymm hle h1]
    · exact l2

/-- Hypothesis met by the values 3/4, 1/4, 1/2. -/
example : ∃ pre x post, ([3/4, 1/4, 1/2] : List Rat) = pre ++ x :: post ∧
    (∀ y ∈ ([3/4, 1/4, 1/2] : List Rat), x ≤ y) ∧ (x = 0 ∨ ∃ y ∈ pre, x ≤ y) :=
  ⟨[3/4], 1/4, [1/2], rfl, by simp; norm_num, Or.inr ⟨3/4, by simp, by norm_num⟩⟩

/-! ## C62 -/

/-- C62, full statement: a value copied from a group to another stays in [0,1] and is above the
destination's threshold exactly when it was above the source's. -/
def C62_full : Prop :=
  ∀ v s d : Rat, 0 ≤ v → v ≤ 1 → 0 ≤ s → s ≤ 1 → 0 ≤ d → d < 1 →
    (0 ≤ morphValue exact v s d ∧ morphValue exact v s d ≤ 1) ∧
    (morphValue exact v s d > d ↔ v > s)

/-- The full statement fails in two ways: from threshold 0 to 4/5 the value 1/2 becomes 13/10; from
threshold 1/2 to 0 the value 1/4, not salient, becomes salient. -/
theorem C62_copied_view_violated :
    ¬ C62_full ∧ morphValue exact (1/2) 0 (4/5) = 13/10 ∧
    (morphValue exact (1/4) (1/2) 0 > 0 ∧ ¬ (1/4 : Rat) > 1/2) := by
  have e : morphValue exact (1/2) 0 (4/5) = 13/10 := by norm_num [morphValue, exact]
  refine ⟨?_, e, by norm_num [morphValue, exact], by norm_num⟩
  intro hf
  have := (hf (1/2) 0 (4/5) (by norm_num) (by norm_num) (by norm_num) (by norm_num) (by norm_num)
    (by norm_num)).1.2
  rw [e] at this; norm_num at this

/-- C62, proved part: it holds when both thresholds are positive, when neither group has a
threshold, and, from a group without threshold, as long as value and threshold add up to at most
1. Missing: the two cases of the violation. -/
theorem C62_copied_view_partial (v s d : Rat) (hv : 0 ≤ v) (hv1 : v ≤ 1) (hs : 0 ≤ s)
    (hd : 0 ≤ d) (hd1 : d < 1) (h : (0 < s ∧ 0 < d) ∨ (s = 0 ∧ d + v ≤ 1)) :
    (0 ≤ morphValue exact v s d ∧ morphValue exact v s d ≤ 1) ∧
    (morphValue exact v s d > d ↔ v > s) := by
  unfold morphValue
  by_cases h0 : v = 0
  · rw [if_pos h0]
    refine ⟨⟨hd, hd1.le⟩, ?_⟩
    rw [h0]; constructor <;> intro h <;> linarith
  · have hvp : 0 < v := lt_of_le_of_ne hv (Ne.symm h0)
    rw [if_neg h0]
    rcases h with ⟨hs', hd'⟩ | ⟨hs', hsum⟩
    · simp only [gt_iff_lt, hs', hd', if_true, exact]
      have hr : 0 < v * d / s := by positivity
      have hiff : d < v * d / s ↔ s < v := by
        rw [lt_div_iff₀ hs', mul_comm v d]
        exact mul_lt_mul_iff_of_pos_left hd'
      split
      · rename_i hgt
        refine ⟨by norm_num, ?_⟩
        constructor
        · intro _; exact hiff.mp (by linarith)
        · intro _; exact hd1
      · rename_i hgt
        exact ⟨⟨hr.le, not_lt.mp hgt⟩, hiff⟩
    · subst hs'
      simp only [gt_iff_lt, lt_irrefl, if_false, exact]
      refine ⟨⟨by linarith, hsum⟩, ?_⟩
      constructor <;> intro h <;> linarith

example : morphValue exact (1/2) (1/4) (1/3) = 2/3 := by norm_num [morphValue, exact]

/-! ## C63 -/

/-- C63, full statement: the change passed on to a view in another group has the direction of the
original change. -/
def C63_full : Prop :=
  ∀ c s d : Rat, -1 ≤ c → c ≤ 1 → 0 ≤ s → s ≤ 1 → 0 ≤ d → d ≤ 1 →
    (0 < c → 0 < morphChange exact c s d) ∧ (c < 0 → morphChange exact c s d < 0)

/-- The full statement fails: from a group without threshold into one of threshold 1/2, a decrease
by 1/4 arrives as an increase by 1/4. -/
theorem C63_propagated_change_violated :
    ¬ C63_full ∧ morphChange exact (-1/4) 0 (1/2) = 1/4 := by
  have e : morphChange exact (-1/4) 0 (1/2) = 1/4 := by norm_num [morphChange, exact]
  refine ⟨?_, e⟩
  intro hf
  have := (hf (-1/4) 0 (1/2) (by norm_num) (by norm_num) (by norm_num) (by norm_num) (by norm_num)
    (by norm_num)).2 (by norm_num)
  rw [e] at this; norm_num at this

/-- C63, proved part: increases always arrive as increases; decreases as decreases if the source
group has a threshold or the destination has none; and from threshold to threshold the change is
scaled by the quotient of the thresholds. Missing: the case of the violation. -/
theorem C63_propagated_change_partial (c s d : Rat) (hs : 0 ≤ s) (hd : 0 ≤ d) :
    (0 < c → 0 < morphChange exact c s d) ∧
    (0 < s ∨ d = 0 → c < 0 → morphChange exact c s d < 0) ∧
    (0 < s → 0 < d → morphChange exact c s d * s = c * d) := by
  unfold morphChange
  by_cases h1 : s > 0
  · by_cases h2 : d > 0
    · simp only [h1, h2, if_true, exact]
      refine ⟨fun hc => by positivity, fun _ hc => ?_, fun _ _ => div_mul_cancel₀ _ h1.ne'⟩
      exact div_neg_of_neg_of_pos (mul_neg_of_neg_of_pos hc h2) h1
    · simp only [h1, h2, if_true, if_false, exact]
      exact ⟨id, fun _ h => h, fun _ h => absurd h (by simp)⟩
  · simp only [h1, if_false, exact]
    refine ⟨fun hc => by linarith, fun h hc => ?_, fun h => absurd h (by simp)⟩
    rcases h with h | h
    · exact h.elim
    · linarith

example : morphChange exact (-1/4) (1/2) (1/4) = -1/8 := by norm_num [morphChange, exact]

end Verif.ViewCtl
