import Verif.Focus.Spec
/-!
# C112: a repeated observation is watched until something is said of it
-/
namespace Verif.Focus

/-- A watch that ended stays as it is and causes nothing. -/
theorem run_dead (es : List WEv) : ∀ q : Queue, q.watch.alive = false →
    (q.run es).2 = [] ∧ (q.run es).1.watch = q.watch := by
  induction es with
  | nil => intro q _; exact ⟨rfl, rfl⟩
  | cons e es ih =>
    intro q hq
    cases e with
    | give x =>
      have ht : q.watch.takes x = false := by simp [Watch.takes, hq]
      have hs : q.step (.give x) = (q, []) := by simp [Queue.step, ht]
      unfold Queue.run
      rw [hs]
      exact ih q hq
    | work dead =>
      obtain ⟨w, jobs⟩ := q
      cases jobs with
      | nil => exact ih ⟨w, []⟩ hq
      | cons x xs =>
        have hr : w.reduce { x with dead := dead } = (w, []) := by
          unfold Watch.reduce
          have : w.alive = false := hq
          rw [this]; rfl
        have hs : Queue.step ⟨w, x :: xs⟩ (.work dead) = (⟨w, xs⟩, []) := by simp [Queue.step, hr]
        unfold Queue.run
        rw [hs]
        exact ih ⟨w, xs⟩ hq

/-- The specification looks only at the kind of the watch, its target, its source and its beginning. -/
structure Same (w w' : Watch) : Prop where
  hold : w.hold = w'.hold
  target : w.target = w'.target
  source : w.source = w'.source
  since : w.since = w'.since

theorem Same.accepts {w w' : Watch} (h : Same w w') (x : Seen) : Accepts w x = Accepts w' x := by
  unfold Accepts; rw [h.since]

theorem Same.worked {w w' : Watch} (h : Same w w') (es : List WEv) : ∀ q, worked w q es = worked w' q es := by
  induction es with
  | nil => intro q; cases q <;> rfl
  | cons e es ih =>
    intro q
    cases e with
    | give x => cases q <;> (unfold Focus.worked; rw [h.accepts, ih])
    | work d => cases q <;> (unfold Focus.worked; rw [ih])

theorem Same.tells {w w' : Watch} (h : Same w w') (x : Seen) : tells w x = tells w' x := by
  unfold Focus.tells; rw [h.target]

theorem Same.decisive {w w' : Watch} (h : Same w w') (xs : List Seen) : decisive w xs = decisive w' xs := by
  induction xs with
  | nil => rfl
  | cons x xs ih => unfold Focus.decisive; rw [h.tells, ih]

theorem Same.before {w w' : Watch} (h : Same w w') (xs : List Seen) : before w xs = before w' xs := by
  induction xs with
  | nil => rfl
  | cons x xs ih => unfold Focus.before; rw [h.tells, ih]

theorem Same.dueTo {w w' : Watch} (h : Same w w') (x : Seen) : dueTo w x = dueTo w' x := by
  unfold Focus.dueTo; rw [h.tells, h.hold, h.target, h.source]

theorem Same.keeps {w w' : Watch} (h : Same w w') : keeps w = keeps w' := by
  funext x; unfold Focus.keeps; rw [h.target]

/-- One reduction by a live watch: if the input says nothing, the watch lives on and keeps it if it is to be kept; if it
says something, the watch ends with what is due. -/
theorem reduce_alive {w : Watch} (hw : w.alive = true) (x : Seen) :
    (tells w x = .nothing → (w.reduce x).2 = [] ∧ (w.reduce x).1.alive = true ∧
      (w.reduce x).1.stored = (if keeps w x then [x.view] else []) ++ w.stored) ∧
    (tells w x ≠ .nothing → (w.reduce x).2 = dueTo w x ∧ (w.reduce x).1.alive = false ∧
      (w.reduce x).1.stored = w.stored) ∧ Same w (w.reduce x).1 := by
  unfold dueTo
  unfold Watch.reduce tells keeps
  rw [hw]
  cases hd : x.dead
  · by_cases ht : x.fact = w.target
    · simp [ht, Watch.store, hw]
      exact ⟨rfl, rfl, rfl, rfl⟩
    · cases hp : x.pred with
      | none =>
        cases hv : x.verdict <;> simp [ht, Watch.store, Watch.kill, hw]
        all_goals exact ⟨rfl, rfl, rfl, rfl⟩
      | some pv =>
        obtain ⟨p, v⟩ := pv
        cases p <;> cases v <;> simp [ht, Watch.kill, hw]
        all_goals exact ⟨rfl, rfl, rfl, rfl⟩
  · simp [hw]
    exact ⟨rfl, rfl, rfl, rfl⟩

theorem run_alive (es : List WEv) : ∀ (w : Watch) (q : List Seen), w.alive = true →
    (Queue.run ⟨w, q⟩ es).2 = (match decisive w (worked w q es) with | none => [] | some x => dueTo w x) ∧
      ((Queue.run ⟨w, q⟩ es).1.watch.alive = true ↔ decisive w (worked w q es) = none) ∧
      (Queue.run ⟨w, q⟩ es).1.watch.stored =
        (((before w (worked w q es)).filter (keeps w)).map Seen.view).reverse ++ w.stored := by
  induction es with
  | nil =>
    intro w q hw
    cases q <;> simp [Queue.run, worked, decisive, before, hw]
  | cons e es ih =>
    intro w q hw
    cases e with
    | give x =>
      have ht : w.takes x = Accepts w x := by
        unfold Watch.takes Accepts; rw [hw]; simp
      have hs : Queue.step ⟨w, q⟩ (.give x) = (⟨w, if Accepts w x then q ++ [x] else q⟩, []) := by
        simp only [Queue.step, ht]
        split <;> rfl
      have hwk : worked w q (.give x :: es) = worked w (if Accepts w x then q ++ [x] else q) es := by
        cases q <;> rfl
      have hr : Queue.run ⟨w, q⟩ (.give x :: es) = Queue.run ⟨w, if Accepts w x then q ++ [x] else q⟩ es := by
        rw [Queue.run]; simp only [hs]; rfl
      rw [hwk, hr]
      exact ih w _ hw
    | work dead =>
      cases q with
      | nil =>
        have hr : Queue.run ⟨w, []⟩ (.work dead :: es) = Queue.run ⟨w, []⟩ es := by
          rw [Queue.run]; rfl
        rw [hr]
        exact ih w [] hw
      | cons x xs =>
        obtain ⟨h1, h2, hsame⟩ := reduce_alive hw { x with dead := dead }
        have hr : Queue.run ⟨w, x :: xs⟩ (.work dead :: es) =
            ((Queue.run ⟨(w.reduce { x with dead := dead }).1, xs⟩ es).1,
              (w.reduce { x with dead := dead }).2 ++
                (Queue.run ⟨(w.reduce { x with dead := dead }).1, xs⟩ es).2) := by
          rw [Queue.run]; rfl
        have hwk : worked w (x :: xs) (.work dead :: es) = { x with dead := dead } :: worked w xs es := rfl
        rw [hr, hwk]
        by_cases hn : tells w { x with dead := dead } = .nothing
        · obtain ⟨e1, e2, e3⟩ := h1 hn
          obtain ⟨i1, i2, i3⟩ := ih _ xs e2
          rw [← hsame.worked, ← hsame.decisive] at i1 i2
          rw [← hsame.worked, ← hsame.before, ← hsame.keeps] at i3
          have hd : decisive w ({ x with dead := dead } :: worked w xs es) = decisive w (worked w xs es) := by
            rw [decisive, if_pos hn]
          have hb : before w ({ x with dead := dead } :: worked w xs es) =
              { x with dead := dead } :: before w (worked w xs es) := by
            rw [before, if_pos hn]
          rw [hd, hb]
          refine ⟨?_, i2, ?_⟩
          · simp only [e1, List.nil_append]
            rw [i1]
            cases decisive w (worked w xs es) with
            | none => rfl
            | some y => exact (hsame.dueTo y).symm
          · simp only [i3, e3]
            by_cases hk : keeps w { x with dead := dead } = true
            · simp [hk]
            · simp [hk]
        · obtain ⟨e1, e2, e3⟩ := h2 hn
          have hd : decisive w ({ x with dead := dead } :: worked w xs es) = some { x with dead := dead } := by
            rw [decisive, if_neg hn]
          have hb : before w ({ x with dead := dead } :: worked w xs es) = [] := by
            rw [before, if_neg hn]
          obtain ⟨f1, f2⟩ := run_dead es ⟨(w.reduce { x with dead := dead }).1, xs⟩ e2
          rw [hd, hb]
          refine ⟨?_, ?_, ?_⟩
          · simp only [f1, e1, List.append_nil]
          · simp only [f2, e2]
            simp
          · simp only [f2, e3]
            rfl

/-- C112. -/
theorem C112_watch : C112_full := by
  intro tol now hold target source es
  obtain ⟨h1, h2, h3⟩ := run_alive es (newWatch tol now hold target source) [] rfl
  exact ⟨h1, h2, by rw [h3]; simp [newWatch]⟩

/-- In particular, at most one change is learned from. -/
theorem C112_once (tol now : Int) (hold : Bool) (target source : Nat) (es : List WEv) :
    ((Queue.run ⟨newWatch tol now hold target source, []⟩ es).2.filter
      fun | .learn _ => true | _ => false).length ≤ 1 := by
  obtain ⟨h1, -, -⟩ := C112_watch tol now hold target source es
  rw [h1]
  cases decisive (newWatch tol now hold target source) (worked (newWatch tol now hold target source) [] es) with
  | none => simp
  | some x =>
    simp only [dueTo]
    cases tells (newWatch tol now hold target source) x <;>
      (try simp only [List.filter_nil, List.length_nil, Nat.zero_le]) <;>
      (try split) <;> simp

/-- An observation of something else, then a change, then a confirmation: the change is learned from, with the first
observation kept; an input older than the watch is not looked at, and a predicted change is not learned from. -/
theorem C112_nonvacuous :
    let o := fun (v : Nat) (d : Verdict) => (⟨v, v, true, false, 10, false, none, d⟩ : Seen)
    let r := Queue.run ⟨newWatch 2 10 true 100 99, []⟩
      [.give (o 1 .unrelated), .give (o 2 .contradicts), .work false, .give (o 3 .confirms), .work false, .work false]
    r.2 = [.gone, .learn 2, .invalidate 100, .invalidate 99] ∧ r.1.watch.stored = [1] ∧
    (Queue.run ⟨newWatch 2 10 false 100 99, []⟩
      [.give { o 1 .contradicts with ijt := 7 }, .give { o 2 .unrelated with pred := some (true, .contradicts) },
        .give (o 3 .contradicts), .work false, .work false]).2 = [.gone] := by
  decide

end Verif.Focus
