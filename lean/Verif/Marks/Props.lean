import Verif.Marks.Spec
/-!
# C176
-/
namespace Verif.Marks

/-- Two objects that differ in their markers only. -/
def Like (x y : Obj) : Prop := { x with marks := [] } = { y with marks := [] }

theorem Like.refl (x : Obj) : Like x x := rfl

theorem Like.trans {x y z : Obj} (a : Like x y) (b : Like y z) : Like x z := Eq.trans a b

theorem Like.fields {x y : Obj} (h : Like x y) : x.marker = y.marker ∧ x.exec = y.exec ∧ x.pair = y.pair ∧ x.refs = y.refs ∧
    x.views = y.views ∧ x.registered = y.registered ∧ x.valid = y.valid ∧ x.alive = y.alive := by
  cases x; cases y
  simpa [Like] using h

theorem pushAll_like (m : Nat) : ∀ (rs : List Nat) (h : Nat → Obj) (a : Nat), Like (pushAll h m rs a) (h a)
  | [], _, _ => rfl
  | r :: rs, h, a => (pushAll_like m rs _ a).trans (by
      by_cases e : a = r
      · simp [upd, e, Like]
      · simp [upd, e, Like])

theorem removeAll_like (m : Nat) : ∀ (rs : List Nat) (h : Nat → Obj) (a : Nat), Like (removeAll h m rs a) (h a)
  | [], _, _ => rfl
  | r :: rs, h, a => (removeAll_like m rs _ a).trans (by
      by_cases e : a = r
      · simp [upd, e, Like]
      · simp [upd, e, Like])

theorem pushAll_count (m : Nat) : ∀ (rs : List Nat) (h : Nat → Obj) (a x : Nat),
    (pushAll h m rs a).marks.count x = (h a).marks.count x + if x = m then rs.count a else 0
  | [], h, a, x => by simp [pushAll]
  | r :: rs, h, a, x => by
    rw [pushAll, pushAll_count m rs]
    by_cases e : a = r <;> by_cases e' : x = m
    · subst e e'
      simp [upd]
      omega
    · subst e
      have : ¬ m = x := fun k => e' k.symm
      simp [upd, e', this]
    · subst e'
      have : ¬ r = a := fun k => e k.symm
      simp [upd, e, this]
    · simp [upd, e, e']

theorem removeAll_count (m : Nat) : ∀ (rs : List Nat) (h : Nat → Obj) (a x : Nat),
    (removeAll h m rs a).marks.count x = (h a).marks.count x - if x = m then rs.count a else 0
  | [], h, a, x => by simp [removeAll]
  | r :: rs, h, a, x => by
    rw [removeAll, removeAll_count m rs]
    by_cases e : a = r <;> by_cases e' : x = m
    · subst e e'
      simp [upd]
      omega
    · subst e
      have : ¬ m = x := fun k => e' k.symm
      simp [upd, e', List.count_erase, this]
    · subst e'
      have : ¬ r = a := fun k => e k.symm
      simp [upd, e, this]
    · simp [upd, e, e']

theorem upd_other {h : Nat → Obj} {a b : Nat} {f : Obj → Obj} (e : b ≠ a) : upd h a f b = h b := by simp [upd, e]

theorem upd_same {h : Nat → Obj} {a : Nat} {f : Obj → Obj} : upd h a f a = f (h a) := by simp [upd]

/-- What holds in all states when markers are placed once. -/
structure Inv (s : State) : Prop where
  exact : ∀ a, (s.obj a).alive = true → Exact s a
  refs : ∀ a, (s.obj a).alive = true → ∀ r ∈ (s.obj a).refs, r < s.next ∧ (s.obj r).alive = true
  fresh : ∀ a, s.next ≤ a → (s.obj a).alive = false
  exec : ∀ a, (s.obj a).alive = true → (s.obj a).marker = true → (s.obj a).exec = true
  pair : ∀ a p, (s.obj a).alive = true → (s.obj a).pair = some p → (s.obj a).marker = true ∧ p.1 ∈ (s.obj a).refs ∧ p.2 ∈ (s.obj a).refs

/-- A change of what is neither a marker in memory nor becomes one, nor of markers. -/
theorem Inv.same {s : State} (hi : Inv s) {h : Nat → Obj}
    (hm : ∀ a, (h a).marks = (s.obj a).marks) (hr : ∀ a, (h a).refs = (s.obj a).refs) (ha : ∀ a, (h a).alive = (s.obj a).alive)
    (hk : ∀ a, (h a).marker = (s.obj a).marker) (he : ∀ a, (h a).exec = (s.obj a).exec) (hp : ∀ a, (h a).pair = (s.obj a).pair)
    (hpl : ∀ a, Placed (h a) ↔ Placed (s.obj a)) : Inv { s with obj := h } where
  exact a k m := by
    show (h a).marks.count m = if Placed (h m) then (h m).refs.count a else 0
    rw [hm, hr]
    simp only [hpl]
    exact hi.exact a ((ha a).symm.trans k) m
  refs a k r hr' := by
    have := hi.refs a ((ha a).symm.trans k) r (by rw [← hr a]; exact hr')
    exact ⟨this.1, (ha r).trans this.2⟩
  fresh a k := (ha a).trans (hi.fresh a k)
  exec a k k' := (he a).trans (hi.exec a ((ha a).symm.trans k) ((hk a).symm.trans k'))
  pair a p k k' := by
    have := hi.pair a p ((ha a).symm.trans k) ((hp a).symm.trans k')
    show (h a).marker = true ∧ p.1 ∈ (h a).refs ∧ p.2 ∈ (h a).refs
    rw [hk, hr]
    exact this

/-- A marker is placed. -/
theorem Inv.place {s : State} (hi : Inv s) {a g : Nat} (ha : (s.obj a).alive = true) (hm : (s.obj a).marker = true)
    (hr : (s.obj a).registered = false) (hv : (s.obj a).valid = true) :
    Inv { s with obj := pushAll (bind s.obj a g) a (s.obj a).refs } := by
  have hl : ∀ b, ∃ v r, Like (pushAll (bind s.obj a g) a (s.obj a).refs b) { s.obj b with views := v, registered := r } ∧
      (b = a → r = true) ∧ (b ≠ a → r = (s.obj b).registered) := by
    intro b
    by_cases e : b = a
    · subst e
      refine ⟨if g ∈ (s.obj b).views then (s.obj b).views else (s.obj b).views ++ [g], true, (pushAll_like _ _ _ _).trans ?_,
        fun _ => rfl, fun k => absurd rfl k⟩
      rw [bind, upd_same]; exact .refl _
    · refine ⟨(s.obj b).views, (s.obj b).registered, (pushAll_like _ _ _ _).trans ?_, fun k => absurd k e, fun _ => rfl⟩
      rw [bind, upd_other e]; exact .refl _
  have hmk : ∀ b, (bind s.obj a g b).marks = (s.obj b).marks := by
    intro b
    by_cases e : b = a
    · subst e; rw [bind, upd_same]; rfl
    · rw [bind, upd_other e]
  constructor
  · intro b k m
    obtain ⟨v, r, h1, _⟩ := hl b
    obtain ⟨v', r', h2, h3, h4⟩ := hl m
    have f1 := h1.fields
    have f2 := h2.fields
    have hb := hi.exact b (f1.2.2.2.2.2.2.2.symm.trans k) m
    show (pushAll _ _ _ b).marks.count m = if Placed (pushAll _ _ _ m) then (pushAll _ _ _ m).refs.count b else 0
    rw [pushAll_count, hmk, hb, f2.2.2.2.1]
    by_cases e : m = a
    · subst e
      have np : ¬ Placed (s.obj m) := fun k => by have := k.2.2.1; rw [hr] at this; cases this
      have pl : Placed (pushAll (bind s.obj m g) m (s.obj m).refs m) :=
        ⟨f2.2.2.2.2.2.2.2.trans ha, f2.1.trans hm, f2.2.2.2.2.2.1.trans (h3 rfl), f2.2.2.2.2.2.2.1.trans hv⟩
      rw [if_neg np, if_pos rfl, if_pos pl, Nat.zero_add]
    · have : Placed (pushAll (bind s.obj a g) a (s.obj a).refs m) ↔ Placed (s.obj m) := by
        unfold Placed
        rw [f2.1, f2.2.2.2.2.2.1, f2.2.2.2.2.2.2.1, f2.2.2.2.2.2.2.2]
        show _ ∧ _ ∧ r' = true ∧ _ ↔ _
        rw [h4 e]
      rw [if_neg e, Nat.add_zero]
      simp only [this]
  · intro b k r hr'
    obtain ⟨v, _, h1, _⟩ := hl b
    obtain ⟨v', _, h2, _⟩ := hl r
    have f1 := h1.fields
    have f2 := h2.fields
    have := hi.refs b (f1.2.2.2.2.2.2.2.symm.trans k) r (f1.2.2.2.1 ▸ hr')
    exact ⟨this.1, f2.2.2.2.2.2.2.2.trans this.2⟩
  · intro b k
    obtain ⟨v, _, h1, _⟩ := hl b
    exact h1.fields.2.2.2.2.2.2.2.trans (hi.fresh b k)
  · intro b k k'
    obtain ⟨v, _, h1, _⟩ := hl b
    have f1 := h1.fields
    exact f1.2.1.trans (hi.exec b (f1.2.2.2.2.2.2.2.symm.trans k) (f1.1.symm.trans k'))
  · intro b p k k'
    obtain ⟨v, _, h1, _⟩ := hl b
    have f1 := h1.fields
    have := hi.pair b p (f1.2.2.2.2.2.2.2.symm.trans k) (f1.2.2.1.symm.trans k')
    exact ⟨f1.1.trans this.1, f1.2.2.2.1.symm ▸ this.2.1, f1.2.2.2.1.symm ▸ this.2.2⟩

/-- Anything but a marker is bound. -/
theorem Inv.bind {s : State} (hi : Inv s) {a g : Nat} (h : ¬ (s.obj a).marker = true) : Inv { s with obj := bind s.obj a g } := by
  apply hi.same <;> intro b <;> by_cases e : b = a
  all_goals first
    | (rw [Marks.bind, upd_other e])
    | (subst e; rw [Marks.bind, upd_same]; exact ⟨fun k => absurd k.2.1 h, fun k => absurd k.2.1 h⟩)
    | (subst e; rw [Marks.bind, upd_same]; done)
    | (subst e; rw [Marks.bind, upd_same]; rfl)

/-- The views of an object change. -/
theorem Inv.views {s : State} (hi : Inv s) {a : Nat} (f : List Nat → List Nat) : Inv { s with obj := upd s.obj a fun o => { o with views := f o.views } } := by
  apply hi.same <;> intro b <;> by_cases e : b = a
  all_goals first
    | (rw [upd_other e])
    | (subst e; rw [upd_same]; done)
    | (subst e; rw [upd_same]; exact Iff.rfl)

theorem invalidate_cases (h : Nat → Obj) (a b : Nat) : ∃ v w, Like (invalidate h a b) { h b with views := v, valid := w } ∧
    (b ≠ a → v = (h b).views ∧ w = (h b).valid) ∧ (b = a → (h a).exec = true → w = false) := by
  unfold invalidate
  by_cases c : ((h a).exec && (h a).valid) = true
  · rw [if_pos c]
    by_cases e : b = a
    · subst e
      refine ⟨[], false, ?_, fun k => absurd rfl k, fun _ _ => rfl⟩
      dsimp only
      split
      · exact (removeAll_like _ _ _ _).trans (by rw [upd_same]; exact .refl _)
      · rw [upd_same]; exact .refl _
    · refine ⟨(h b).views, (h b).valid, ?_, fun _ => ⟨rfl, rfl⟩, fun k => absurd k e⟩
      dsimp only
      split
      · exact (removeAll_like _ _ _ _).trans (by rw [upd_other e]; exact .refl _)
      · rw [upd_other e]; exact .refl _
  · rw [if_neg c]
    refine ⟨(h b).views, (h b).valid, .refl _, fun _ => ⟨rfl, rfl⟩, ?_⟩
    rintro rfl k
    simpa [k] using c

/-- An object is invalidated. -/
theorem Inv.invalidate {s : State} (hi : Inv s) {a : Nat} (ha : (s.obj a).alive = true) : Inv { s with obj := invalidate s.obj a } := by
  have hc := invalidate_cases s.obj a
  constructor
  · intro b k m
    obtain ⟨v, w, h1, _⟩ := hc b
    obtain ⟨v', w', h2, h3, h4⟩ := hc m
    have f1 := h1.fields
    have f2 := h2.fields
    have hb := hi.exact b (f1.2.2.2.2.2.2.2.symm.trans k) m
    show (Marks.invalidate s.obj a b).marks.count m = if Placed (Marks.invalidate s.obj a m) then (Marks.invalidate s.obj a m).refs.count b else 0
    by_cases e : m = a
    · subst e
      by_cases c : ((s.obj m).exec && (s.obj m).valid) = true
      · rw [Bool.and_eq_true] at c
        have np : ¬ Placed (Marks.invalidate s.obj m m) := fun k => by
          have := k.2.2.2
          rw [f2.2.2.2.2.2.2.1] at this
          rw [h4 rfl c.1] at this; cases this
        rw [if_neg np]
        have hmk : ∀ b, (upd s.obj m (fun o => { o with valid := false, views := [] }) b).marks = (s.obj b).marks := by
          intro b
          by_cases e : b = m
          · subst e; rw [upd_same]
          · rw [upd_other e]
        rw [Marks.invalidate, if_pos (by rw [Bool.and_eq_true]; exact c)]
        by_cases mm : (s.obj m).marker = true
        · simp only [mm, if_true]
          rw [removeAll_count, hmk, hb, if_pos rfl]
          split <;> omega
        · simp only [mm, if_false, Bool.false_eq_true]
          rw [hmk, hb, if_neg fun k => mm k.2.1]
      · rw [Marks.invalidate, if_neg c]
        exact hb
    · have pl : Placed (Marks.invalidate s.obj a m) ↔ Placed (s.obj m) := by
        unfold Placed
        rw [f2.1, f2.2.2.2.2.2.1, f2.2.2.2.2.2.2.1, f2.2.2.2.2.2.2.2]
        show _ ∧ _ ∧ _ ∧ w' = true ↔ _
        rw [(h3 e).2]
      simp only [pl]
      rw [f2.2.2.2.1, ← hb]
      unfold Marks.invalidate
      split
      · dsimp only
        split
        · rw [removeAll_count, if_neg e, Nat.sub_zero]
          by_cases e' : b = a
          · subst e'; rw [upd_same]
          · rw [upd_other e']
        · by_cases e' : b = a
          · subst e'; rw [upd_same]
          · rw [upd_other e']
      · rfl
  · intro b k r hr'
    obtain ⟨v, _, h1, _⟩ := hc b
    obtain ⟨v', _, h2, _⟩ := hc r
    have f1 := h1.fields
    have f2 := h2.fields
    have := hi.refs b (f1.2.2.2.2.2.2.2.symm.trans k) r (f1.2.2.2.1 ▸ hr')
    exact ⟨this.1, f2.2.2.2.2.2.2.2.trans this.2⟩
  · intro b k
    obtain ⟨v, _, h1, _⟩ := hc b
    exact h1.fields.2.2.2.2.2.2.2.trans (hi.fresh b k)
  · intro b k k'
    obtain ⟨v, _, h1, _⟩ := hc b
    have f1 := h1.fields
    exact f1.2.1.trans (hi.exec b (f1.2.2.2.2.2.2.2.symm.trans k) (f1.1.symm.trans k'))
  · intro b p k k'
    obtain ⟨v, _, h1, _⟩ := hc b
    have f1 := h1.fields
    have := hi.pair b p (f1.2.2.2.2.2.2.2.symm.trans k) (f1.2.2.1.symm.trans k')
    exact ⟨f1.1.trans this.1, f1.2.2.2.1.symm ▸ this.2.1, f1.2.2.2.1.symm ▸ this.2.2⟩

/-- An object that is not a marker in memory goes, when no other refers to it. -/
theorem Inv.gone {s : State} (hi : Inv s) {a : Nat} (hp : ¬ Placed (s.obj a))
    (hn : ∀ b, (s.obj b).alive = true → a ∉ (s.obj b).refs) :
    Inv { s with obj := upd s.obj a fun o => { o with alive := false } } := by
  have hne : ∀ b, (upd s.obj a (fun o => { o with alive := false }) b).alive = true → b ≠ a := by
    rintro b k rfl
    rw [upd_same] at k; cases k
  constructor
  · intro b k m
    have e := hne b k
    show (upd s.obj a _ b).marks.count m = if Placed (upd s.obj a _ m) then (upd s.obj a _ m).refs.count b else 0
    rw [upd_other e]
    have k' : (s.obj b).alive = true := by
      have := k; dsimp only at this; rwa [upd_other e] at this
    rw [hi.exact b k' m]
    by_cases e' : m = a
    · subst e'
      rw [if_neg hp, if_neg]
      intro k; rw [upd_same] at k; exact absurd k.1 (by simp)
    · rw [upd_other e']
  · intro b k r hr
    have e := hne b k
    dsimp only at k hr ⊢
    rw [upd_other e] at k hr
    have := hi.refs b k r hr
    have er : r ≠ a := fun x => hn b k (x ▸ hr)
    rw [upd_other er]
    exact this
  · intro b k
    by_cases e : b = a
    · subst e; dsimp only; rw [upd_same]
    · dsimp only; rw [upd_other e]; exact hi.fresh b k
  · intro b k k'
    have e := hne b k
    dsimp only at k k' ⊢
    rw [upd_other e] at k k' ⊢
    exact hi.exec b k k'
  · intro b p k k'
    have e := hne b k
    dsimp only at k k' ⊢
    rw [upd_other e] at k k' ⊢
    exact hi.pair b p k k'

theorem Inv.step {s s' : State} {op : Op} (hi : Inv s) (ho : Once s op) (e : step s op = some s') : Inv s' := by
  cases op with
  | create mk ex pr refs =>
    simp only [Marks.step] at e
    split at e
    · rename_i c
      cases e
      have hfr := hi.fresh s.next (Nat.le_refl _)
      have key : ∀ b, (s.obj b).alive = true → b ≠ s.next := by
        rintro b k rfl
        rw [hfr] at k; cases k
      constructor
      · intro b k m
        dsimp only at k
        show (upd s.obj s.next _ b).marks.count m = if Placed (upd s.obj s.next _ m) then (upd s.obj s.next _ m).refs.count b else 0
        by_cases eb : b = s.next
        · subst eb
          rw [upd_same]
          by_cases em : m = s.next
          · subst em
            rw [upd_same, if_neg (fun k => by simp [Placed] at k)]
            rfl
          · rw [upd_other em]
            show 0 = _
            split
            · rename_i hp
              symm
              rw [List.count_eq_zero]
              exact fun hm => Nat.lt_irrefl _ (hi.refs m hp.1 _ hm).1
            · rfl
        · rw [upd_other eb] at k ⊢
          rw [hi.exact b k m]
          by_cases em : m = s.next
          · subst em
            rw [upd_same, if_neg (fun k => key _ k.1 rfl), if_neg (fun k => by simp [Placed] at k)]
          · rw [upd_other em]
      · intro b k r hr
        dsimp only at k hr ⊢
        by_cases eb : b = s.next
        · subst eb
          rw [upd_same] at hr
          have := c.1 r hr
          rw [upd_other (key r this.2)]
          exact ⟨by omega, this.2⟩
        · rw [upd_other eb] at k hr
          have := hi.refs b k r hr
          rw [upd_other (key r this.2)]
          exact ⟨by omega, this.2⟩
      · intro b k
        dsimp only at k ⊢
        rw [upd_other (by omega)]
        exact hi.fresh b (by omega)
      · intro b k k'
        dsimp only at k k' ⊢
        by_cases eb : b = s.next
        · subst eb
          rw [upd_same] at k' ⊢
          exact ho k'
        · rw [upd_other eb] at k k' ⊢
          exact hi.exec b k k'
      · intro b p k k'
        dsimp only at k k' ⊢
        by_cases eb : b = s.next
        · subst eb
          rw [upd_same] at k' ⊢
          exact c.2 p k'
        · rw [upd_other eb] at k k' ⊢
          exact hi.pair b p k k'
    · cases e
  | load a g =>
    simp only [Marks.step] at e
    split at e
    · rename_i ha
      cases e
      by_cases hm : (s.obj a).marker = true
      · simp only [hm, if_true]
        exact hi.place ha hm (ho hm).1 (ho hm).2
      · simp only [hm]
        exact hi.bind hm
    · cases e
  | inject a g =>
    simp only [Marks.step] at e
    split at e
    · rename_i ha
      split at e
      · rename_i hv
        split at e
        · cases e
          exact hi.views fun v => if g ∈ v then v else v ++ [g]
        · rename_i hr
          cases e
          by_cases hm : (s.obj a).marker = true
          · simp only [hm, if_true]
            exact hi.place ha hm (by simpa using hr) hv
          · simp only [hm]
            exact hi.bind hm
      · cases e; exact hi
    · cases e
  | notify a g =>
    simp only [Marks.step] at e
    split at e
    · rename_i ha
      cases e
      rw [Bool.and_eq_true] at ha
      exact hi.place ha.1 ha.2 ho.1 ho.2
    · cases e
  | drop a g =>
    simp only [Marks.step] at e
    split at e
    · rename_i ha
      cases e
      rw [Bool.and_eq_true] at ha
      have h1 := hi.views (a := a) fun v => v.erase g
      split
      · exact h1.invalidate (by dsimp only; rw [upd_same]; exact ha.1)
      · exact h1
    · cases e
  | invalidate a =>
    simp only [Marks.step] at e
    split at e
    · rename_i ha
      cases e
      exact hi.invalidate ha
    · cases e
  | delete a =>
    simp only [Marks.step] at e
    split at e
    · rename_i c
      cases e
      obtain ⟨ha, _, hn⟩ := c
      have h1 := hi.invalidate ha
      obtain ⟨v, w, hl, _, hw⟩ := invalidate_cases s.obj a a
      have f := hl.fields
      refine h1.gone ?_ ?_
      · intro k
        have km : (s.obj a).marker = true := f.1.symm.trans k.2.1
        have kv := f.2.2.2.2.2.2.1.symm.trans k.2.2.2
        rw [show w = false from hw rfl (hi.exec a ha km)] at kv
        cases kv
      · intro b kb
        obtain ⟨v', w', hl', _⟩ := invalidate_cases s.obj a b
        have f' := hl'.fields
        have kb' : (s.obj b).alive = true := f'.2.2.2.2.2.2.2.symm.trans kb
        have : b < s.next := by
          apply Classical.byContradiction
          intro k
          rw [hi.fresh b (by omega)] at kb'
          cases kb'
        intro hm
        exact hn b this kb' (f'.2.2.2.1 ▸ hm)
    · cases e

theorem inv_reach {s : State} (h : Reach Once s) : Inv s := by
  induction h with
  | init => exact ⟨(fun _ k => by cases k), (fun _ k => by cases k), fun _ _ => rfl, (fun _ k => by cases k), (fun _ _ k => by cases k)⟩
  | next _ ho e ih => exact ih.step ho e

theorem secondary_some {s : State} {a : Nat} : ∀ {ms : List Nat}, (∀ m ∈ ms, (s.obj m).alive = true) →
    ∃ r, secondary s a ms = some r ∧ (∀ t, r = some t → ∃ m ∈ ms, (s.obj m).pair = some (a, t)) ∧
      (r = none → ∀ m ∈ ms, ∀ t, (s.obj m).pair ≠ some (a, t))
  | [], _ => ⟨none, rfl, (fun t k => by cases k), (fun _ m k => by cases k)⟩
  | m :: ms, h => by
    obtain ⟨r, h1, h2, h3⟩ := secondary_some (a := a) fun m' k => h m' (List.mem_cons_of_mem _ k)
    rw [secondary, if_pos (h m List.mem_cons_self)]
    have skip : (∀ t, (s.obj m).pair ≠ some (a, t)) → ∃ r', secondary s a ms = some r' ∧ (∀ t, r' = some t → ∃ m' ∈ m :: ms, (s.obj m').pair = some (a, t)) ∧
        (r' = none → ∀ m' ∈ m :: ms, ∀ t, (s.obj m').pair ≠ some (a, t)) := by
      intro hn
      refine ⟨r, h1, fun t k => ?_, fun k m' hm' => ?_⟩
      · obtain ⟨m', q1, q2⟩ := h2 t k
        exact ⟨m', List.mem_cons_of_mem _ q1, q2⟩
      · rcases List.mem_cons.1 hm' with rfl | hm'
        · exact hn
        · exact h3 k m' hm'
    cases hp : (s.obj m).pair with
    | none => exact skip fun t k => by rw [hp] at k; cases k
    | some p =>
      obtain ⟨f, t⟩ := p
      by_cases e : f = a
      · subst e
        dsimp only
        rw [if_pos rfl]
        refine ⟨some t, rfl, fun t' k => ?_, fun k => by cases k⟩
        cases k
        exact ⟨m, List.mem_cons_self, hp⟩
      · dsimp only
        rw [if_neg e]
        exact skip fun t' k => by rw [hp] at k; cases k; exact e rfl

theorem Inv.mem {s : State} (hi : Inv s) {a m : Nat} (ha : (s.obj a).alive = true) : m ∈ (s.obj a).marks ↔ Placed (s.obj m) ∧ a ∈ (s.obj m).refs := by
  rw [← List.count_pos_iff, hi.exact a ha m]
  split
  · rename_i hp
    rw [List.count_pos_iff]
    exact ⟨fun k => ⟨hp, k⟩, fun k => k.2⟩
  · rename_i hp
    exact ⟨fun k => absurd k (Nat.lt_irrefl _), fun k => absurd k.1 hp⟩

/-- C176 in part: it holds when markers are `Object`s and are loaded, or injected as notifications, into one group.  Missing: markers
that are loaded in several groups, notifications that are injected into several, as `mk.rdx` is, or after they were invalidated,
and notifications that come from an image. -/
theorem C176_markers_partial (s : State) (h : Reach Once s) (a : Nat) (ha : (s.obj a).alive = true) : Exact s a ∧ Paired s a := by
  have hi := inv_reach h
  refine ⟨hi.exact a ha, ?_⟩
  obtain ⟨r, h1, h2, h3⟩ := secondary_some (s := s) (a := a) (ms := (s.obj a).marks) fun m hm => ((hi.mem ha).1 hm).1.1
  refine ⟨r, h1, fun t k => ?_, fun k m t hp e => ?_⟩
  · obtain ⟨m, q1, q2⟩ := h2 t k
    exact ⟨m, ((hi.mem ha).1 q1).1, q2⟩
  · exact h3 k m ((hi.mem ha).2 ⟨hp, (hi.pair m _ hp.1 e).2.1⟩) t e

/-- The operations one after the other. -/
def runs : State → List Op → Option State
  | s, [] => some s
  | s, op :: ops => (step s op).bind fun s' => runs s' ops

theorem runs_reach {P : State → Op → Prop} (hP : ∀ s op, P s op) : ∀ {ops : List Op} {s s' : State}, Reach P s → runs s ops = some s' → Reach P s'
  | [], _, _, h, e => by cases e; exact h
  | op :: ops, s, s', h, e => by
    simp only [runs, Option.bind_eq_some_iff] at e
    obtain ⟨s1, e1, e2⟩ := e
    exact runs_reach hP (.next h (hP _ _) e1) e2

/-- The markers of the object 0 afterwards, those of them that are gone, and its secondary group. -/
def look (s : State) : List Nat × List Nat × Option (Option Nat) :=
  ((s.obj 0).marks, (s.obj 0).marks.filter fun m => !(s.obj m).alive, secondary s 0 (s.obj 0).marks)

/-- A `mk.rdx` of an object is injected into two groups; its views come to their ends, and it is deleted. -/
def rdx : List Op :=
  [.create false true none [], .inject 0 7, .create true true none [0], .notify 1 7, .notify 1 8, .drop 1 7, .drop 1 8, .delete 1]

/-- A marker is loaded in two groups, and invalidated. -/
def twice : List Op :=
  [.create false true none [], .load 0 7, .create true true none [0], .load 1 7, .load 1 8, .invalidate 1]

/-- A notification of an image. -/
def plain : List Op :=
  [.create false true none [], .load 0 7, .create true false none [0], .load 1 7, .drop 1 7, .delete 1]

/-- C176 does not hold: a notification in two groups is twice in the marker set of what it refers to, where the address of what is gone
remains, that is followed when saliency changes; likewise what is loaded in two groups, and notifications of an image in one. -/
theorem C176_markers_violated : ¬ C176_full ∧
    (runs {} (rdx.take 5)).map look = some ([1, 1], [], some none) ∧ (runs {} rdx).map look = some ([1], [1], none) ∧
    (runs {} twice).map look = some ([1], [], some none) ∧ (runs {} plain).map look = some ([1], [1], none) := by
  refine ⟨fun h => ?_, by decide, by decide, by decide, by decide⟩
  cases e : runs {} rdx with
  | none => exact absurd (congrArg Option.isSome e) (by decide)
  | some s =>
    have hl : (runs {} rdx).map look = some ([1], [1], none) := by decide
    have ha : (runs {} rdx).map (fun s => (s.obj 0).alive) = some true := by decide
    rw [e] at hl ha
    simp only [Option.map_some, Option.some.injEq] at hl ha
    obtain ⟨_, r, h2, _⟩ := h s (runs_reach (fun _ _ => trivial) .init e) 0 ha
    have : secondary s 0 (s.obj 0).marks = none := congrArg (fun x => x.2.2) hl
    rw [this] at h2
    cases h2

/-- A group that is the first of a pair and that a marker refers to twice; that marker goes, the pair stays. -/
def good : List Op :=
  [.create false true none [], .load 0 7, .create false true none [], .load 1 7, .create true true (some (0, 1)) [0, 1], .load 2 7,
    .create true true none [0, 0], .inject 3 7, .inject 3 8, .drop 3 7, .drop 3 8, .delete 3]

theorem C176_nonvacuous :
    (∃ s, runs {} good = some s ∧ Reach Once s ∧ look s = ([2], [], some (some 1))) ∧
    (runs {} (good.take 9)).map look = some ([2, 3, 3], [], some (some 1)) := by
  refine ⟨⟨_, rfl, ?_, by decide⟩, by decide⟩
  refine .next (.next (.next (.next (.next (.next (.next (.next (.next (.next (.next (.next .init
    (op := good[0]) ?_ rfl) (op := good[1]) ?_ rfl) (op := good[2]) ?_ rfl) (op := good[3]) ?_ rfl) (op := good[4]) ?_ rfl) (op := good[5]) ?_ rfl)
    (op := good[6]) ?_ rfl) (op := good[7]) ?_ rfl) (op := good[8]) ?_ rfl) (op := good[9]) ?_ rfl) (op := good[10]) ?_ rfl) (op := good[11]) ?_ rfl
  all_goals first | trivial | exact fun _ => ⟨rfl, rfl⟩ | exact fun _ => rfl | exact fun k => absurd k (by decide)

end Verif.Marks
