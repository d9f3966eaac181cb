import Verif.Perf.Model
/-!
# Property C32
-/
namespace Verif.Perf

/-- The latencies of reduction jobs / time jobs in a window. -/
def reds (w : List Op) : List Int := w.filterMap fun | .red l => some l | _ => none
def times (w : List Op) : List Int := w.filterMap fun | .time l => some l | _ => none

/-- A window: the operations between two samplings. -/
def Window (w : List Op) : Prop := Op.sample ∉ w

/-- The mean of a window, 0 when empty. -/
def mean (l : List Int) : Int := if l = [] then 0 else l.sum.tdiv l.length

/-- The report that ends the window `w` after the history `h`. -/
def report (h w : List Op) : Option Report := (step (after init (h ++ w)) .sample).2

/-- C32 in full: the report at the end of any window, after any history, gives the mean latencies of
that window. -/
def C32_full : Prop :=
  ∀ (h w : List Op), Window w → (h = [] ∨ h.getLast? = some .sample) →
    ∃ r, report h w = some r ∧ r.red = mean (reds w) ∧ r.time = mean (times w)

theorem after_append (s : St) (a b : List Op) : after s (a ++ b) = after (after s a) b := by
  induction a generalizing s with
  | nil => rfl
  | cons op a ih => exact ih _

theorem window_state (s : St) (w : List Op) (hw : Window w) :
    after s w = ⟨⟨s.red.count + (reds w).length, s.red.avg + (reds w).sum, s.red.prev⟩,
      ⟨s.time.count + (times w).length, s.time.avg + (times w).sum, s.time.prev⟩⟩ := by
  induction w generalizing s with
  | nil => simp [after, reds, times]
  | cons op w ih =>
    have hw' : Window w := fun q => hw (List.mem_cons_of_mem _ q)
    cases op with
    | red l =>
      simp only [after, step]
      rw [ih _ hw']
      simp [reds, times, Counter.register]; omega
    | time l =>
      simp only [after, step]
      rw [ih _ hw']
      simp [reds, times, Counter.register]; omega
    | sample => exact absurd (by simp) hw

/-- C32 is violated: the sum is not cleared when a window ends. One job of latency 10 in the first
window, one of latency 2 in the second: the second report says 12. -/
theorem C32_window_average_violated : ¬ C32_full ∧
    report [.red 10, .sample] [.red 2] = some ⟨12, 2, 0, 0⟩ := by
  refine ⟨?_, by decide⟩
  intro h
  obtain ⟨r, h1, h2, _⟩ := h [.red 10, .sample] [.red 2] (by simp [Window]) (by simp)
  have : r = ⟨12, 2, 0, 0⟩ := by
    have h3 : report [.red 10, .sample] [.red 2] = some ⟨12, 2, 0, 0⟩ := by decide
    rw [h3] at h1; exact (Option.some.inj h1).symm
  subst this
  exact absurd h2 (by decide)

/-- The averages carried over from the history. -/
def carried (h : List Op) : Report := ((run init h).getLast?).getD ⟨0, 0, 0, 0⟩

theorem run_append (s : St) (a b : List Op) : run s (a ++ b) = run s a ++ run (after s a) b := by
  induction a generalizing s with
  | nil => rfl
  | cons op a ih =>
    simp only [List.cons_append, run, after, ih, List.append_assoc]

/-- C32, partial: what is reported at the end of a window is
`(previous report's average + sum of the window's latencies) / number of jobs`; hence the mean of
the window when the previous report was 0, in particular in the first window, and 0 for a window
without jobs. The change reported is the difference to the previous report (0 without jobs).
Missing: the mean, for windows after a non-zero report. -/
theorem C32_window_average_partial (h w : List Op) (hw : Window w)
    (hh : h = [] ∨ ∃ h', h = h' ++ [.sample]) :
    ∃ r, report h w = some r ∧
      r.red = (if reds w = [] then 0 else ((carried h).red + (reds w).sum).tdiv (reds w).length) ∧
      r.time = (if times w = [] then 0 else ((carried h).time + (times w).sum).tdiv (times w).length) ∧
      ((carried h).red = 0 → r.red = mean (reds w)) ∧
      ((carried h).time = 0 → r.time = mean (times w)) ∧
      (reds w ≠ [] → r.dRed = r.red - (carried h).red) ∧
      (times w ≠ [] → r.dTime = r.time - (carried h).time) := by
  have hst : (after init h).red.count = 0 ∧ (after init h).red.avg = (carried h).red ∧
      (after init h).red.prev = (carried h).red ∧ (after init h).time.count = 0 ∧
      (after init h).time.avg = (carried h).time ∧ (after init h).time.prev = (carried h).time := by
    rcases hh with rfl | ⟨h', rfl⟩
    · decide
    · have e : carried (h' ++ [.sample]) = ⟨(after init h').red.compute.1, (after init h').red.compute.2,
          (after init h').time.compute.1, (after init h').time.compute.2⟩ := by
        unfold carried
        rw [run_append]
        simp [run, step]
      rw [e, after_append]
      simp [after, step, Counter.sample]
  obtain ⟨a1, a2, a3, a4, a5, a6⟩ := hst
  have hs : after init (h ++ w) = ⟨⟨(reds w).length, (carried h).red + (reds w).sum, (carried h).red⟩,
      ⟨(times w).length, (carried h).time + (times w).sum, (carried h).time⟩⟩ := by
    rw [after_append, window_state _ _ hw, a1, a2, a3, a4, a5, a6]; simp
  refine ⟨_, rfl, ?_⟩
  simp only [hs, Counter.compute, mean]
  have l1 : (reds w).length > 0 ↔ reds w ≠ [] := List.length_pos_iff
  have l2 : (times w).length > 0 ↔ times w ≠ [] := List.length_pos_iff
  by_cases e1 : reds w = [] <;> by_cases e2 : times w = [] <;> simp [l1, l2, e1, e2]
  · intro q; simp [q]
  · intro q; simp [q]
  · exact ⟨fun q => by simp [q], fun q => by simp [q]⟩

/-- A concrete history and window. -/
example : report [.red 10, .sample, .sample] [.red 2, .time 7, .red 4] = some ⟨3, 3, 7, 7⟩ := by decide

end Verif.Perf
