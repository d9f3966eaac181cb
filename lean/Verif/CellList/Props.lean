import Verif.CellList.Lemmas
/-!
# Properties C08, C09 (list) and C10 (time buffer)

The observable behaviour of a list is what an iteration sees: the sequence of elements, each at a
position (`entries`), and its size.
-/
namespace Verif.CellList
variable {α : Type}

/-! ## Histories -/

/-- What a client can do with a list. -/
inductive Op (α : Type)
  | pushBack (t : α)
  | pushFront (t : α)
  | eraseNth (k : Nat)   -- advance an iterator k times from begin(), erase there unless at end()
  | eraseAt (loc : Nat)  -- erase(int32): only allowed for a position of the list
  | remove (t : α)
  | clear

/-- The concrete run; `none` if some operation has undefined behaviour. -/
def step [DecidableEq α] (s : St α) : Op α → Option (St α)
  | .pushBack t => pushBack s t
  | .pushFront t => pushFront s t
  | .eraseNth k => eraseNth s k
  | .eraseAt c => eraseCell s c
  | .remove t => remove s t
  | .clear => some empty

def run [DecidableEq α] (s : St α) : List (Op α) → Option (St α)
  | [] => some s
  | op :: ops => (step s op).bind (fun s' => run s' ops)

/-- The specification: a sequence of (position, element) pairs. `next s op s'` says that `s'` is an
allowed outcome of `op` on `s`; the only freedom is which unused position a new element gets. -/
def Spec.next [DecidableEq α] (s : List (Nat × α)) (op : Op α) (s' : List (Nat × α)) : Prop :=
  match op with
  | .pushBack t => ∃ p, p ∉ s.map Prod.fst ∧ s' = s ++ [(p, t)]
  | .pushFront t => ∃ p, p ∉ s.map Prod.fst ∧ s' = (p, t) :: s
  | .eraseNth k => s' = s.eraseIdx k
  | .eraseAt c => s' = s.filter (fun e => e.1 ≠ c)
  | .remove t => s' = s.eraseP (fun e => e.2 = t)
  | .clear => s' = []

/-- Operations a client may perform in an abstract state. -/
def Spec.allowed (s : List (Nat × α)) : Op α → Prop
  | .eraseAt c => c ∈ s.map Prod.fst
  | _ => True

/-- All allowed abstract executions. -/
inductive Spec.Exec [DecidableEq α] : List (Nat × α) → List (Op α) → List (Nat × α) → Prop
  | nil (s) : Spec.Exec s [] s
  | cons {s s' s'' op ops} : Spec.allowed s op → Spec.next s op s' → Spec.Exec s' ops s'' →
      Spec.Exec s (op :: ops) s''

/-- A concrete state reached by some history of allowed operations from the empty list. -/
inductive Reach [DecidableEq α] : St α → Prop
  | empty : Reach empty
  | step {s s' op es} : Reach s → entries s = some es → Spec.allowed es op → step s op = some s' →
      Reach s'

theorem dropFirst_eq [DecidableEq α] (t : α) (u : List (Nat × α)) :
    dropFirst t u = u.eraseP (fun e => e.2 = t) := by
  induction u with
  | nil => rfl
  | cons e u ih =>
    by_cases h : e.2 = t
    · simp [dropFirst, h]
    · simp [dropFirst, h, ih]

theorem filter_ne_of_split {a b : List (Nat × α)} {e : Nat × α}
    (h : (keys (a ++ e :: b)).Nodup) :
    (a ++ e :: b).filter (fun x => x.1 ≠ e.1) = a ++ b := by
  simp only [keys_append, keys_cons] at h
  obtain ⟨_, h2, h3⟩ := List.nodup_append.mp h
  have ha : ∀ x ∈ a, decide (x.1 ≠ e.1) = true := by
    intro x hx
    simp only [decide_eq_true_eq]
    exact h3 x.1 (List.mem_map_of_mem hx) e.1 (by simp)
  have hb : ∀ x ∈ b, decide (x.1 ≠ e.1) = true := by
    intro x hx
    simp only [decide_eq_true_eq]
    intro hxe
    exact (List.nodup_cons.mp h2).1 (hxe ▸ List.mem_map_of_mem hx)
  rw [List.filter_append, List.filter_cons, if_neg (by simp), List.filter_eq_self.mpr ha,
    List.filter_eq_self.mpr hb]

/-- One operation on a represented state. -/
theorem step_rep [DecidableEq α] {s : St α} {u : List (Nat × α)} {f : List Nat} (r : Rep s u f)
    (op : Op α) (h : Spec.allowed u op) :
    ∃ s' u' f', step s op = some s' ∧ Rep s' u' f' ∧ Spec.next u op u' := by
  cases op with
  | pushBack t =>
    obtain ⟨i, s', f', h1, _, h3, h4⟩ := pushBack_spec r t
    exact ⟨s', _, f', h1, h4, i, h3, rfl⟩
  | pushFront t =>
    obtain ⟨i, s', f', h1, h3, h4, _⟩ := pushFront_spec r t
    exact ⟨s', _, f', h1, h4, i, h3, rfl⟩
  | eraseNth k =>
    obtain ⟨s', f', h1, h2⟩ := eraseNthFrom_spec [] k (by simpa using r) r.seg
    refine ⟨s', _, f', ?_, by simpa using h2, rfl⟩
    show eraseNthFrom s k s.head = _
    rw [r.hhead]; exact h1
  | eraseAt c =>
    obtain ⟨e, he, rfl⟩ := List.mem_map.mp h
    obtain ⟨a, b, rfl⟩ := List.append_of_mem he
    obtain ⟨s', h1, h2, _⟩ := eraseCell_spec r
    refine ⟨s', a ++ b, _, h1, h2, ?_⟩
    exact (filter_ne_of_split (List.nodup_append.mp r.nodup).1).symm
  | remove t =>
    obtain ⟨s', f', h1, h2⟩ := removeFrom_spec [] t s.n (by rw [r.size]; omega)
      (by simpa using r) r.seg
    refine ⟨s', _, f', ?_, by simpa using h2, dropFirst_eq t u⟩
    show removeFrom s t s.n s.head = _
    rw [r.hhead]; exact h1
  | clear => exact ⟨empty, [], [], rfl, rep_empty, rfl⟩

theorem reach_rep [DecidableEq α] {s : St α} (h : Reach s) :
    ∃ u f, Rep s u f ∧ entries s = some u := by
  induction h with
  | empty => exact ⟨[], [], rep_empty, entries_spec rep_empty⟩
  | step _ he ha hs ih =>
    obtain ⟨u, f, r, hu⟩ := ih
    rw [hu] at he
    obtain rfl := Option.some.inj he
    obtain ⟨s2, u2, f2, h1, h2, _⟩ := step_rep r _ ha
    rw [hs] at h1
    obtain rfl := Option.some.inj h1
    exact ⟨u2, f2, h2, entries_spec h2⟩

/-! ## C08 -/

/-- C08: in every state reached by any history of allowed operations, iteration terminates and
yields a sequence of elements at pairwise distinct positions, whose length is the reported size;
and every further allowed operation is well defined and changes that sequence exactly as the
abstract sequence operation does (so no other element or position is affected). -/
theorem C08_list_refines_sequence [DecidableEq α] {s : St α} (h : Reach s) :
    ∃ es, entries s = some es ∧ (es.map Prod.fst).Nodup ∧ s.used = es.length ∧
      ∀ op, Spec.allowed es op → ∃ s' es', step s op = some s' ∧ entries s' = some es' ∧
        Spec.next es op es' := by
  obtain ⟨u, f, r, hu⟩ := reach_rep h
  refine ⟨u, hu, (List.nodup_append.mp r.nodup).1, r.hused, ?_⟩
  intro op ha
  obtain ⟨s', u', f', h1, h2, h3⟩ := step_rep r op ha
  exact ⟨s', u', h1, entries_spec h2, h3⟩

/-- The value-level operation: sequences without positions. -/
def valueStep [DecidableEq α] (l : List α) : Op α → List α
  | .pushBack t => l ++ [t]
  | .pushFront t => t :: l
  | .eraseNth k => l.eraseIdx k
  | .remove t => l.erase t
  | .clear => []
  | .eraseAt _ => l      -- not used below: erasure by position is not a value-level operation

theorem map_eraseIdx' (k : Nat) (u : List (Nat × α)) :
    (u.eraseIdx k).map Prod.snd = (u.map Prod.snd).eraseIdx k := by
  induction u generalizing k with
  | nil => rfl
  | cons e u ih => cases k <;> simp [ih]

theorem map_eraseP' [DecidableEq α] (t : α) (u : List (Nat × α)) :
    (u.eraseP (fun e => e.2 = t)).map Prod.snd = (u.map Prod.snd).erase t := by
  induction u with
  | nil => rfl
  | cons e u ih =>
    by_cases h : e.2 = t
    · simp [h]
    · simp [List.eraseP_cons, List.erase_cons, h, ih]

/-- C08, whole histories: any history of appending, prepending, erasing the k-th element, removing
by value and clearing is well defined, and the elements seen by iteration are those of the plain
sequence after the same history. -/
theorem C08_histories [DecidableEq α] (ops : List (Op α)) (hops : ∀ op ∈ ops, ∀ c, op ≠ .eraseAt c) :
    ∃ s es, run empty ops = some s ∧ entries s = some es ∧
      es.map Prod.snd = ops.foldl valueStep [] ∧ s.used = (ops.foldl valueStep []).length := by
  have key : ∀ (ops : List (Op α)), (∀ op ∈ ops, ∀ c, op ≠ .eraseAt c) →
      ∀ (s : St α) u f, Rep s u f → ∃ s' u' f', run s ops = some s' ∧ Rep s' u' f' ∧
        u'.map Prod.snd = ops.foldl valueStep (u.map Prod.snd) := by
    intro ops
    induction ops with
    | nil => intro _ s u f r; exact ⟨s, u, f, rfl, r, rfl⟩
    | cons op ops ih =>
      intro hops s u f r
      have hall : Spec.allowed u op := by
        cases op with
        | eraseAt c => exact absurd rfl (hops (.eraseAt c) (List.mem_cons_self ..) c)
        | _ => trivial
      obtain ⟨s1, u1, f1, h1, r1, n1⟩ := step_rep r op hall
      obtain ⟨s2, u2, f2, h2, r2, n2⟩ := ih (fun o ho => hops o (by simp [ho])) s1 u1 f1 r1
      refine ⟨s2, u2, f2, by simp [run, h1, h2], r2, ?_⟩
      rw [n2, List.foldl_cons]
      congr 1
      cases op with
      | pushBack t => obtain ⟨p, _, rfl⟩ := n1; simp [valueStep]
      | pushFront t => obtain ⟨p, _, rfl⟩ := n1; simp [valueStep]
      | eraseNth k =>
        simp only [Spec.next] at n1; subst n1
        exact map_eraseIdx' k u
      | eraseAt c => exact absurd rfl (hops _ (by simp) c)
      | remove t =>
        simp only [Spec.next] at n1; subst n1
        exact map_eraseP' t u
      | clear => simp only [Spec.next] at n1; subst n1; rfl
  obtain ⟨s, u, f, h1, h2, h3⟩ := key ops hops empty [] [] rep_empty
  refine ⟨s, u, h1, entries_spec h2, by simpa using h3, ?_⟩
  rw [h2.hused]
  have := congrArg List.length h3
  simpa using this

/-- An instance with a recycled cell: push 1 2 3, erase the middle, push 4. -/
example : (run (empty : St Nat) [.pushBack 1, .pushBack 2, .pushFront 3, .eraseNth 1, .pushBack 4]).bind
    entries = some [(2, 3), (1, 2), (0, 4)] := by decide

/-! ## C09 -/

/-- C09: the position reported by `push_back` is the position of the new element: erasing there
at once, or later (C08: positions do not move), removes exactly that element. -/
theorem C09_push_back_location [DecidableEq α] {s : St α} (h : Reach s) (t : α) :
    ∃ es p s', entries s = some es ∧ pushBackLoc s t = some (some p, s') ∧
      step s (.pushBack t) = some s' ∧ entries s' = some (es ++ [(p, t)]) ∧
      p ∉ es.map Prod.fst ∧ ∃ s'', eraseCell s' p = some s'' ∧ entries s'' = some es := by
  obtain ⟨u, f, r, hu⟩ := reach_rep h
  obtain ⟨i, s', f', h1, h2, h3, h4⟩ := pushBack_spec r t
  obtain ⟨s'', h5, h6, _⟩ := eraseCell_spec (a := u) (b := []) h4
  exact ⟨u, i, s', hu, h2, h1, entries_spec h4, h3, s'', h5, by simpa using entries_spec h6⟩

/-- C09 for `push_front`, as its signature promises. -/
def C09_push_front_full : Prop :=
  ∀ (s : St Nat), Reach s → ∀ t es, entries s = some es → ∃ p s',
    pushFrontLoc s t = some (some p, s') ∧ entries s' = some ((p, t) :: es)

/-- C09 is violated by `push_front`: on a list without free cells the position reported is that of
the old last element (or no position at all on the empty list). -/
theorem C09_push_front_location_violated :
    ¬ C09_push_front_full ∧
    (∃ s', pushFrontLoc (empty : St Nat) 7 = some (none, s')) ∧
    (∃ s s', run (empty : St Nat) [.pushBack 5] = some s ∧ pushFrontLoc s 7 = some (some 0, s') ∧
      entries s' = some [(1, 7), (0, 5)]) := by
  have h0 : ∃ s', pushFrontLoc (empty : St Nat) 7 = some (none, s') := ⟨_, rfl⟩
  refine ⟨fun hf => ?_, h0, ⟨_, _, rfl, rfl, by decide⟩⟩
  obtain ⟨s', h0⟩ := h0
  obtain ⟨p, s'', h1, _⟩ := hf empty .empty 7 [] rfl
  rw [h0] at h1
  simp at h1

/-- C09 for `push_front`, the part that holds (missing: lists without a free cell): when some cell
is free, i.e. after an erasure not yet compensated by a push, the position is right. -/
theorem C09_push_front_location_partial [DecidableEq α] {s : St α} (h : Reach s) (t : α)
    (hfree : s.freeCount ≠ 0) :
    ∃ es p s', entries s = some es ∧ pushFrontLoc s t = some (some p, s') ∧
      entries s' = some ((p, t) :: es) ∧ p ∉ es.map Prod.fst := by
  obtain ⟨u, f, r, hu⟩ := reach_rep h
  obtain ⟨i, s', f', h1, h3, h4, h5⟩ := pushFront_spec r t
  have : f ≠ [] := by rintro rfl; exact hfree r.hfc
  rw [if_neg this] at h5
  exact ⟨u, i, s', hu, h5, entries_spec h4, h3⟩

/-- The hypothesis of the partial theorem is met after any erasure. -/
example : ∃ s, Reach s ∧ s.freeCount ≠ 0 ∧ entries s = some [(1, 6)] := by
  refine ⟨_, .step (.step (.step .empty rfl trivial (op := .pushBack (5 : Nat)) rfl) rfl trivial
    (op := .pushBack 6) rfl) rfl (es := [(0, 5), (1, 6)]) (op := .eraseAt 0) ?_ rfl, ?_, ?_⟩
  · simp [Spec.allowed]
  · decide
  · decide

/-! ## C10 -/

/-- C10 as documented (time_buffer.h:113, "moves to the next time-compliant cell and erase old
cells met in the process"), for any notion of dead elements. -/
def C10_full : Prop :=
  ∀ (dead : Nat → Bool) (s : St Nat), Reach s → ∀ es, entries s = some es →
    ∃ s', walkAll dead s = some ((es.map Prod.snd).filter (fun x => !dead x), s') ∧
      entries s' = some (es.filter (fun e => !dead e.2))

/-- C10 is violated at the head: `begin` does not check the first element, which is yielded and
kept even when dead. -/
theorem C10_time_buffer_violated :
    ¬ C10_full ∧ ∃ s, run (empty : St Nat) [.pushBack 1, .pushBack 2] = some s ∧
      (walkAll (fun x => x == 1) s).map Prod.fst = some [1, 2] := by
  have hw : ∃ s, run (empty : St Nat) [.pushBack 1, .pushBack 2] = some s ∧
      (walkAll (fun x => x == 1) s).map Prod.fst = some [1, 2] := ⟨_, rfl, by decide⟩
  refine ⟨fun hf => ?_, hw⟩
  obtain ⟨s, hs, hw⟩ := hw
  have hr : Reach s := by
    obtain rfl := Option.some.inj hs
    exact .step (.step .empty rfl trivial (op := .pushBack 1) rfl) rfl trivial
      (op := .pushBack 2) rfl
  have he : entries s = some [(0, 1), (1, 2)] := by
    have : (run (empty : St Nat) [.pushBack 1, .pushBack 2]).bind entries =
        some [(0, 1), (1, 2)] := by decide
    rw [hs] at this; exact this
  obtain ⟨s', h1, _⟩ := hf (fun x => x == 1) s hr _ he
  rw [h1] at hw
  simp at hw

/-- C10, the part that holds (missing: a dead first element is still yielded and kept): a walk
terminates, and apart from the first element it yields exactly the live ones in order and erases
exactly the dead ones. -/
theorem C10_time_buffer_partial [DecidableEq α] (dead : α → Bool) {s : St α} (h : Reach s)
    (e : Nat × α) (es : List (Nat × α)) (he : entries s = some (e :: es)) :
    ∃ s', walkAll dead s = some (e.2 :: (es.map Prod.snd).filter (fun x => !dead x), s') ∧
      entries s' = some (e :: es.filter (fun x => !dead x.2)) ∧
      (dead e.2 = false →
        entries s' = some ((e :: es).filter (fun x => !dead x.2))) := by
  obtain ⟨u, f, r, hu⟩ := reach_rep h
  rw [he] at hu
  obtain rfl := Option.some.inj hu
  obtain ⟨s', f', h1, h2⟩ := walk_spec dead [] (e :: es) s.n (by rw [r.size]; omega)
    (by simpa using r)
  have h3 := entries_spec h2
  simp only [List.nil_append, survivors] at h3
  refine ⟨s', ?_, h3, ?_⟩
  · rw [walkAll, r.hhead, h1]
    simp [survivors, List.filter_map, Function.comp_def]
  · intro hd'
    rw [h3]; simp [hd']

end Verif.CellList
