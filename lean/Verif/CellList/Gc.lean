import Verif.CellList.Lemmas
/-!
# Loops that collect old entries

The loop used by all evidence and requirement caches:

```
for (e = l.begin(); e != l.end();)
  if (is_too_old(*e)) e = l.erase(e);
  else { visit *e, perhaps leave the loop; ++e; }
```
-/
namespace Verif.CellList
variable {α σ : Type}

/-- The loop. `f` visits an entry and says whether to leave the loop. `none`: undefined behaviour (or
the fuel is too small). -/
def gcWalk (old : α → Bool) (f : σ → α → σ × Bool) : Nat → St α → Option Nat → σ → Option (σ × Bool × St α)
  | _, s, none, x => some (x, false, s)
  | 0, _, some _, _ => none
  | k + 1, s, some i, x =>
    match s.cell i with
    | none => none
    | some c =>
      if old c.data then
        match eraseNext s i with
        | none => none
        | some (nx, s') => gcWalk old f k s' nx x
      else
        match f x c.data with
        | (x', true) => some (x', true, s)
        | (x', false) => gcWalk old f k s c.next x'

/-- The loop over the whole list. -/
def gcAll (old : α → Bool) (f : σ → α → σ × Bool) (s : St α) (x : σ) : Option (σ × Bool × St α) :=
  gcWalk old f s.n s s.head x

/-- The same on sequences. -/
def gcList (old : α → Bool) (f : σ → α → σ × Bool) : List (Nat × α) → σ → σ × Bool × List (Nat × α)
  | [], x => (x, false, [])
  | e :: u, x =>
    if old e.2 then gcList old f u x
    else match f x e.2 with
      | (x', true) => (x', true, e :: u)
      | (x', false) => let r := gcList old f u x'
        (r.1, r.2.1, e :: r.2.2)

theorem gcWalk_spec (old : α → Bool) (f : σ → α → σ × Bool) (u : List (Nat × α)) :
    ∀ (s : St α) (a : List (Nat × α)) (fr : List Nat) (k : Nat) (x : σ), u.length ≤ k → Rep s (a ++ u) fr →
    ∃ s' fr', gcWalk old f k s (hd u) x = some ((gcList old f u x).1, (gcList old f u x).2.1, s') ∧
      Rep s' (a ++ (gcList old f u x).2.2) fr' := by
  induction u with
  | nil =>
    intro s a fr k x _ r
    exact ⟨s, fr, by cases k <;> rfl, by simpa [gcList] using r⟩
  | cons e u ih =>
    intro s a fr k x hk r
    cases k with
    | zero => simp at hk
    | succ k =>
      obtain ⟨h1, h2⟩ := seg_tail_of_rep r
      by_cases ho : old e.2 = true
      · obtain ⟨s1, _, r1, e1⟩ := eraseCell_spec r
        obtain ⟨s', fr', e2, r2⟩ := ih s1 a _ k x (by simpa using hk) r1
        refine ⟨s', fr', ?_, by simpa [gcList, ho] using r2⟩
        simp [gcWalk, h1, ho, e1, e2, gcList]
      · rcases hf : f x e.2 with ⟨x', b⟩
        cases b with
        | true =>
          refine ⟨s, fr, ?_, by simpa [gcList, ho, hf] using r⟩
          simp [gcWalk, h1, ho, hf, gcList]
        | false =>
          obtain ⟨s', fr', e2, r2⟩ := ih s (a ++ [e]) fr k x' (by simpa using hk) (by simpa using r)
          refine ⟨s', fr', ?_, by simpa [gcList, ho, hf] using r2⟩
          simp [gcWalk, h1, ho, hf, gcList, e2]

theorem gcAll_spec (old : α → Bool) (f : σ → α → σ × Bool) {s : St α} {u : List (Nat × α)} {fr : List Nat}
    (r : Rep s u fr) (x : σ) :
    ∃ s' fr', gcAll old f s x = some ((gcList old f u x).1, (gcList old f u x).2.1, s') ∧
      Rep s' (gcList old f u x).2.2 fr' := by
  obtain ⟨s', fr', h1, h2⟩ := gcWalk_spec old f u s [] fr s.n x (by rw [r.size]; omega) (by simpa using r)
  exact ⟨s', fr', by rw [gcAll, r.hhead]; exact h1, by simpa using h2⟩

/-- A loop that is never left: the visits of the entries that are not old, which are what remains. -/
theorem gcList_fold (old : α → Bool) (f : σ → α → σ) (u : List (Nat × α)) : ∀ x : σ,
    gcList old (fun y e => (f y e, false)) u x =
      (((u.map Prod.snd).filter fun e => !old e).foldl f x, false, u.filter fun e => !old e.2) := by
  induction u with
  | nil => intro x; rfl
  | cons e u ih =>
    intro x
    by_cases ho : old e.2 = true
    · simp [gcList, ho, ih]
    · simp [gcList, ho, ih]

/-- A loop left at the first entry satisfying `P`: the old entries before it are gone. -/
theorem gcList_find (old P : α → Bool) (g : σ → α → σ) (u : List (Nat × α)) : ∀ x : σ,
    ∃ v w, u = v ++ w ∧
      gcList old (fun y e => if P e then (g y e, true) else (y, false)) u x =
        ((match ((u.map Prod.snd).filter fun e => !old e).find? P with | some e => g x e | none => x),
         (((u.map Prod.snd).filter fun e => !old e).find? P).isSome,
         v.filter (fun e => !old e.2) ++ w) ∧
      (∀ e ∈ v, !old e.2 → P e.2 = false) ∧
      (w = [] ∨ ∃ e w', w = e :: w' ∧ old e.2 = false ∧ P e.2 = true) := by
  induction u with
  | nil => intro x; exact ⟨[], [], rfl, rfl, by simp, Or.inl rfl⟩
  | cons e u ih =>
    intro x
    by_cases ho : old e.2 = true
    · obtain ⟨v, w, h1, h2, h3, h4⟩ := ih x
      refine ⟨e :: v, w, by simp [h1], ?_, ?_, h4⟩
      · simp [gcList, ho, h2]
      · intro y hy
        rcases List.mem_cons.1 hy with rfl | hy
        · simp [ho]
        · exact h3 y hy
    · by_cases hP : P e.2 = true
      · refine ⟨[], e :: u, rfl, ?_, by simp, Or.inr ⟨e, u, rfl, by simpa using ho, hP⟩⟩
        simp [gcList, ho, hP]
      · obtain ⟨v, w, h1, h2, h3, h4⟩ := ih x
        refine ⟨e :: v, w, by simp [h1], ?_, ?_, h4⟩
        · simp [gcList, ho, hP, h2]
        · intro y hy
          rcases List.mem_cons.1 hy with rfl | hy
          · simpa using fun _ => hP
          · exact h3 y hy

end Verif.CellList
