import Verif.Store.Model
/-!
# Properties C30 (identifiers), C31 (injection) and C64 (the store)
-/
namespace Verif.Store
open CellList (Rep keys pushBack_spec eraseCell_spec entries_spec)

/-! ## Histories -/

/-- The identifiers handed out by a step: the object and the identifier it then carries. -/
def given (s' : St) (e : Ev) : List (Nat × Nat) :=
  match boundBy e with
  | some a => [(a, (s'.obj a).oid)]
  | none => []

/-- A run: an image is loaded into a new memory, then anything happens.  `ids` lists the objects
that came with the image or were given an identifier, in order, each with its identifier at that
time. -/
inductive Run (volatile keep : Bool) (null : Nat → Bool) (img : List (Nat × Nat)) :
    St → List (Nat × Nat) → Prop
  | load {now : Int} {s : St} : load (fresh volatile keep null now) img = some s →
      Run volatile keep null img s img
  | step {s s' : St} {ids : List (Nat × Nat)} {op : Op} {e : Ev} :
      Run volatile keep null img s ids → step s op = some (s', e) →
      Run volatile keep null img s' (ids ++ given s' e)

/-- An image: at least the root, each object once, with different identifiers, of 32 bits. -/
structure Image (null : Nat → Bool) (img : List (Nat × Nat)) : Prop where
  objects : (img.map Prod.fst).Nodup
  ids : (img.map Prod.snd).Nodup
  range : ∀ e ∈ img, e.2 < 4294967296
  null : ∀ e ∈ img, null e.1 = false

/-- C30 in full: in every run, the identifiers handed out or loaded are pairwise different, the
objects keep them, and new ones are handed out in increasing order, above those loaded. -/
def C30_full : Prop :=
  ∀ (volatile keep : Bool) (null : Nat → Bool) (img : List (Nat × Nat)) (s : St)
    (ids : List (Nat × Nat)), Image null img → Run volatile keep null img s ids →
    (ids.map Prod.snd).Nodup ∧ (∀ e ∈ ids, (s.obj e.1).oid = e.2) ∧
    ∃ new, ids = img ++ new ∧ (new.map Prod.snd).Pairwise (· < ·) ∧
      ∀ a ∈ img, ∀ b ∈ new, a.2 < b.2

/-- C64 in full: at every moment the object list of a `MemStatic` holds each registered object once:
those loaded or given an identifier (null programs excepted) that have not been invalidated, or all
of them if invalidated objects are to be kept. -/
def C64_full : Prop :=
  ∀ (keep : Bool) (null : Nat → Bool) (img : List (Nat × Nat)) (s : St) (ids : List (Nat × Nat)),
    Image null img → Run false keep null img s ids →
    ∃ es, CellList.entries s.store = some es ∧ (es.map Prod.snd).Nodup ∧
      ∀ a, a ∈ es.map Prod.snd ↔
        (a ∈ ids.map Prod.fst ∧ null a = false ∧ (keep = true ∨ (s.obj a).inval = false))

/-! ## Lemmas -/

theorem setOb_self (s : St) (a : Nat) (o : Ob) : (setOb s a o).obj a = o := by simp [setOb]

theorem setOb_ne (s : St) {a b : Nat} (o : Ob) (h : b ≠ a) : (setOb s a o).obj b = s.obj b := by
  simp [setOb, h]

/-- The invariant of disciplined runs of either memory. -/
structure Inv (img ids : List (Nat × Nat)) (null : Nat → Bool) (s : St) : Prop where
  objects : (ids.map Prod.fst).Nodup
  carried : ∀ e ∈ ids, (s.obj e.1).oid = e.2
  low : ∀ e ∈ ids, (e.2 : Int) ≤ s.last
  last : -1 ≤ s.last
  split : ∃ new, ids = img ++ new ∧ (new.map Prod.snd).Pairwise (· < ·) ∧
      ∀ a ∈ img, ∀ b ∈ new, a.2 < b.2
  distinct : (ids.map Prod.snd).Nodup
  nulls : ∀ a, (s.obj a).null = null a

/-- The invariant of the store. -/
structure SInv (ids : List (Nat × Nat)) (keep : Bool) (s : St) (u : List (Nat × Nat)) (f : List Nat) :
    Prop where
  vol : s.volatile = false
  keepEq : s.keep = keep
  rep : Rep s.store u f
  here : ∀ e ∈ u, (s.obj e.2).loc = some e.1
  known : ∀ a, (∃ l, (s.obj a).loc = some l) ↔ (a ∈ ids.map Prod.fst ∧ (s.obj a).null = false)
  mem : ∀ a, a ∈ u.map Prod.snd ↔
    (a ∈ ids.map Prod.fst ∧ (s.obj a).null = false ∧ (keep = true ∨ (s.obj a).inval = false))

/-- `s'` differs from `s` at most in the clock and the queues. -/
def Core (s s' : St) : Prop :=
  s'.obj = s.obj ∧ s'.last = s.last ∧ s'.store = s.store ∧ s'.keep = s.keep ∧ s'.volatile = s.volatile

theorem Core.rfl' (s : St) : Core s s := ⟨rfl, rfl, rfl, rfl, rfl⟩

theorem inject_cases {s s' : St} {v : View} {e : Ev} (h : inject s v = some (s', e)) :
    (Core s s' ∧ boundBy e = none) ∨
    (bind s v.obj = some s' ∧ boundBy e = some v.obj ∧ (s.obj v.obj).loc = none ∧
      (s.obj v.obj).inval = false) := by
  unfold inject at h
  by_cases h1 : (s.obj v.obj).inval = true
  · rw [if_pos h1] at h; cases h; exact Or.inl ⟨Core.rfl' _, rfl⟩
  rw [if_neg h1] at h
  by_cases h2 : (s.obj v.host).inval = true
  · rw [if_pos h2] at h; cases h; exact Or.inl ⟨Core.rfl' _, rfl⟩
  rw [if_neg h2] at h
  by_cases h3 : (s.obj v.obj).loc.isSome = true
  · rw [if_pos h3] at h
    split at h <;> cases h <;> exact Or.inl ⟨⟨rfl, rfl, rfl, rfl, rfl⟩, rfl⟩
  · rw [if_neg h3] at h
    split at h
    · cases hb : bind s v.obj with
      | none => rw [hb] at h; simp at h
      | some s1 =>
        rw [hb] at h
        simp only [Option.map_some, Option.some.injEq, Prod.mk.injEq] at h
        obtain ⟨rfl, rfl⟩ := h
        exact Or.inr ⟨rfl, rfl, by simpa using h3, by simpa using h1⟩
    · cases h; exact Or.inl ⟨⟨rfl, rfl, rfl, rfl, rfl⟩, rfl⟩

theorem step_cases {s s' : St} {op : Op} {e : Ev} (h : step s op = some (s', e)) :
    (Core s s' ∧ boundBy e = none) ∨
    (∃ a s0, Core s s0 ∧ bind s0 a = some s' ∧ boundBy e = some a ∧
      ((∃ v, op = .notify v ∧ v.obj = a) ∨ ((s.obj a).loc = none ∧ (s.obj a).inval = false))) ∨
    (∃ a, invalidate s a = some s' ∧ boundBy e = none) := by
  have viaInject : ∀ (s0 : St) (v : View), Core s s0 → inject s0 v = some (s', e) →
      (Core s s' ∧ boundBy e = none) ∨
      (∃ a s0, Core s s0 ∧ bind s0 a = some s' ∧ boundBy e = some a ∧
      ((∃ v, op = .notify v ∧ v.obj = a) ∨ ((s.obj a).loc = none ∧ (s.obj a).inval = false))) ∨
      (∃ a, invalidate s a = some s' ∧ boundBy e = none) := by
    intro s0 v hc hi
    rcases inject_cases hi with ⟨⟨a1, a2, a3, a4, a5⟩, h2⟩ | ⟨h1, h2, h3, h4⟩
    · obtain ⟨b1, b2, b3, b4, b5⟩ := hc
      exact Or.inl ⟨⟨a1.trans b1, a2.trans b2, a3.trans b3, a4.trans b4, a5.trans b5⟩, h2⟩
    · refine Or.inr (Or.inl ⟨v.obj, s0, hc, h1, h2, Or.inr ?_⟩)
      rw [hc.1] at h3 h4
      exact ⟨h3, h4⟩
  cases op with
  | submit v => exact viaInject s v (Core.rfl' s) h
  | submitAsync v =>
    simp only [step, injectAsync] at h
    left
    split at h
    · cases h; exact ⟨Core.rfl' _, rfl⟩
    · split at h
      · cases h; exact ⟨Core.rfl' _, rfl⟩
      · split at h <;> cases h <;> exact ⟨⟨rfl, rfl, rfl, rfl, rfl⟩, rfl⟩
  | notify v =>
    simp only [step, notify] at h
    cases hb : bind s v.obj with
    | none => rw [hb] at h; simp at h
    | some s1 =>
      rw [hb] at h
      simp only [Option.map_some, Option.some.injEq, Prod.mk.injEq] at h
      obtain ⟨rfl, rfl⟩ := h
      exact Or.inr (Or.inl ⟨v.obj, s, Core.rfl' s, hb, rfl, Or.inl ⟨v, rfl, rfl⟩⟩)
  | invalidate a =>
    simp only [step] at h
    cases hb : invalidate s a with
    | none => rw [hb] at h; simp at h
    | some s1 =>
      rw [hb] at h
      simp only [Option.map_some, Option.some.injEq, Prod.mk.injEq] at h
      obtain ⟨rfl, rfl⟩ := h
      exact Or.inr (Or.inr ⟨a, hb, rfl⟩)
  | advance d => cases h; exact Or.inl ⟨⟨rfl, rfl, rfl, rfl, rfl⟩, rfl⟩
  | timeJob k =>
    simp only [step] at h
    cases hj : s.timeQ[k]? with
    | none => rw [hj] at h; simp at h
    | some j =>
      rw [hj] at h
      simp only at h
      by_cases ht : j.target ≤ s.now
      · rw [if_pos ht] at h
        unfold runJob at h
        by_cases he : j.existing = true
        · rw [if_pos he] at h; cases h; exact Or.inl ⟨⟨rfl, rfl, rfl, rfl, rfl⟩, rfl⟩
        · rw [if_neg he] at h
          refine viaInject _ _ ?_ h
          exact ⟨rfl, rfl, rfl, rfl, rfl⟩
      · rw [if_neg ht] at h; cases h
  | redJob k =>
    simp only [step] at h
    cases hj : s.redQ[k]? with
    | none => rw [hj] at h; simp at h
    | some v =>
      rw [hj] at h
      simp only at h
      refine viaInject _ _ ?_ h
      exact ⟨rfl, rfl, rfl, rfl, rfl⟩

/-- What `put` changes. -/
theorem put_facts {s s' : St} {a : Nat} (h : put s a = some s') :
    s'.last = s.last ∧ s'.keep = s.keep ∧ s'.volatile = s.volatile ∧
    (∀ b, (s'.obj b).oid = (s.obj b).oid ∧ (s'.obj b).null = (s.obj b).null ∧
      (s'.obj b).inval = (s.obj b).inval) ∧ (∀ b, b ≠ a → s'.obj b = s.obj b) ∧
    ∃ l, CellList.pushBackLoc s.store a = some (l, s'.store) ∧ (s'.obj a).loc = l := by
  unfold put at h
  cases hp : CellList.pushBackLoc s.store a with
  | none => rw [hp] at h; cases h
  | some r =>
    obtain ⟨l, st⟩ := r
    rw [hp] at h
    simp only [Option.some.injEq] at h
    subst h
    refine ⟨rfl, rfl, rfl, ?_, ?_, l, rfl, by rw [setOb_self]⟩
    · intro b
      by_cases hb : b = a
      · subst hb; rw [setOb_self]; exact ⟨rfl, rfl, rfl⟩
      · rw [setOb_ne _ _ hb]; exact ⟨rfl, rfl, rfl⟩
    · intro b hb; rw [setOb_ne _ _ hb]

/-- What `bind` changes. -/
theorem bind_facts {s s' : St} {a : Nat} (h : bind s a = some s') :
    s'.last = s.last + 1 ∧ s.last < 2147483647 ∧ s'.keep = s.keep ∧ s'.volatile = s.volatile ∧
    (s'.obj a).oid = toU32 (s.last + 1) ∧
    (∀ b, (s'.obj b).null = (s.obj b).null ∧ (s'.obj b).inval = (s.obj b).inval) ∧
    (∀ b, b ≠ a → s'.obj b = s.obj b) ∧
    (s.volatile = false → (s.obj a).null = true → s'.store = s.store ∧ (s'.obj a).loc = (s.obj a).loc) ∧
    (s.volatile = false → (s.obj a).null = false →
      ∃ l, CellList.pushBackLoc s.store a = some (l, s'.store) ∧ (s'.obj a).loc = l) := by
  unfold bind at h
  by_cases hl : s.last ≥ 2147483647
  · rw [if_pos hl] at h; cases h
  rw [if_neg hl] at h
  simp only at h
  have simple : ∀ b, ((setOb { s with last := s.last + 1 } a
        { s.obj a with oid := toU32 (s.last + 1) }).obj b).null = (s.obj b).null ∧
      ((setOb { s with last := s.last + 1 } a
        { s.obj a with oid := toU32 (s.last + 1) }).obj b).inval = (s.obj b).inval := by
    intro b
    by_cases hb : b = a
    · subst hb; rw [setOb_self]; exact ⟨rfl, rfl⟩
    · rw [setOb_ne _ _ hb]; exact ⟨rfl, rfl⟩
  by_cases hv : s.volatile = true
  · rw [if_pos hv] at h
    cases h
    refine ⟨rfl, by omega, rfl, rfl, by rw [setOb_self], simple, fun b hb => setOb_ne _ _ hb, ?_, ?_⟩
    · intro h0; rw [hv] at h0; cases h0
    · intro h0; rw [hv] at h0; cases h0
  · rw [if_neg hv] at h
    by_cases hn : (s.obj a).null = true
    · rw [if_pos hn] at h
      cases h
      refine ⟨rfl, by omega, rfl, rfl, by rw [setOb_self], simple, fun b hb => setOb_ne _ _ hb, ?_, ?_⟩
      · intro _ _; exact ⟨rfl, by rw [setOb_self]⟩
      · intro _ h0; rw [hn] at h0; cases h0
    · rw [if_neg hn] at h
      obtain ⟨p1, p2, p3, p4, p5, p6⟩ := put_facts h
      refine ⟨p1, by omega, p2, p3, ?_, ?_, ?_, ?_, ?_⟩
      · rw [(p4 a).1, setOb_self]
      · intro b; rw [(p4 b).2.1, (p4 b).2.2]; exact simple b
      · intro b hb; rw [p5 b hb]; exact setOb_ne _ _ hb
      · intro _ h0; exact absurd h0 hn
      · intro _ _; exact p6

theorem toU32_of_nonneg {x : Int} (h0 : 0 ≤ x) (h1 : x < 4294967296) : (toU32 x : Int) = x := by
  unfold toU32; omega

/-- A bind to an object not yet known keeps the identifiers in order. -/
theorem Inv.bind {img ids : List (Nat × Nat)} {null : Nat → Bool} {s s' : St} {a : Nat}
    (h : Inv img ids null s) (hb : bind s a = some s') (ha : a ∉ ids.map Prod.fst) :
    Inv img (ids ++ [(a, (s'.obj a).oid)]) null s' := by
  obtain ⟨b1, b2, _, _, b3, b4, b5, _⟩ := bind_facts hb
  have hoid : ((s'.obj a).oid : Int) = s.last + 1 := by
    rw [b3]; exact toU32_of_nonneg (by have := h.last; omega) (by omega)
  have hold : ∀ e ∈ ids, e.2 < (s'.obj a).oid := by
    intro e he; have := h.low e he; omega
  refine ⟨?_, ?_, ?_, by have := h.last; omega, ?_, ?_, ?_⟩
  · rw [List.map_append, List.nodup_append]
    refine ⟨h.objects, by simp, ?_⟩
    intro x hx y hy
    simp at hy; subst hy
    intro hxy; subst hxy; exact ha hx
  · intro e he
    rcases List.mem_append.mp he with he | he
    · have hne : e.1 ≠ a := fun q => ha (q ▸ List.mem_map_of_mem he)
      rw [b5 _ hne]; exact h.carried e he
    · simp at he; subst he; rfl
  · intro e he
    rcases List.mem_append.mp he with he | he
    · have := h.low e he; omega
    · simp at he; subst he; omega
  · obtain ⟨new, rfl, h2, h3⟩ := h.split
    refine ⟨new ++ [(a, (s'.obj a).oid)], by simp, ?_, ?_⟩
    · rw [List.map_append, List.pairwise_append]
      refine ⟨h2, by simp, ?_⟩
      intro x hx y hy
      simp at hy; subst hy
      obtain ⟨e, he, rfl⟩ := List.mem_map.mp hx
      exact hold e (List.mem_append.mpr (Or.inr he))
    · intro x hx y hy
      rcases List.mem_append.mp hy with hy | hy
      · exact h3 x hx y hy
      · simp at hy; subst hy; exact hold x (List.mem_append.mpr (Or.inl hx))
  · rw [List.map_append, List.nodup_append]
    refine ⟨h.distinct, by simp, ?_⟩
    intro x hx y hy
    simp at hy; subst hy
    obtain ⟨e, he, rfl⟩ := List.mem_map.mp hx
    have := hold e he
    omega
  · intro b; rw [(b4 b).1]; exact h.nulls b

theorem Inv.core {img ids : List (Nat × Nat)} {null : Nat → Bool} {s s' : St}
    (h : Inv img ids null s) (hc : Core s s') : Inv img ids null s' := by
  obtain ⟨c1, c2, _⟩ := hc
  exact ⟨h.objects, by rw [c1]; exact h.carried, by rw [c2]; exact h.low, by rw [c2]; exact h.last,
    h.split, h.distinct, by rw [c1]; exact h.nulls⟩

/-- What `invalidate` changes. -/
theorem invalidate_facts {s s' : St} {a : Nat} (h : invalidate s a = some s') :
    s'.last = s.last ∧ s'.keep = s.keep ∧ s'.volatile = s.volatile ∧
    (∀ b, (s'.obj b).oid = (s.obj b).oid ∧ (s'.obj b).null = (s.obj b).null ∧
      (s'.obj b).loc = (s.obj b).loc) ∧ (∀ b, b ≠ a → s'.obj b = s.obj b) ∧
    (s'.obj a).inval = true ∧
    ((s.obj a).inval = true → s' = s) ∧
    ((s.obj a).inval = false → s.volatile = false → s.keep = false → ∀ l, (s.obj a).loc = some l →
      CellList.eraseCell s.store l = some s'.store) ∧
    ((s.obj a).loc = none → s'.store = s.store) ∧ (s.keep = true → s'.store = s.store) := by
  unfold invalidate at h
  by_cases hi : (s.obj a).inval = true
  · rw [if_pos hi] at h; cases h
    refine ⟨rfl, rfl, rfl, fun _ => ⟨rfl, rfl, rfl⟩, fun _ _ => rfl, hi, fun _ => rfl, ?_, fun _ => rfl,
      fun _ => rfl⟩
    intro h0; rw [hi] at h0; cases h0
  rw [if_neg hi] at h
  simp only at h
  have hobj : ∀ b, ((mark s a).obj b).oid = (s.obj b).oid ∧
      ((mark s a).obj b).null = (s.obj b).null ∧
      ((mark s a).obj b).loc = (s.obj b).loc := by
    intro b
    by_cases hb : b = a
    · subst hb; rw [mark, setOb_self]; exact ⟨rfl, rfl, rfl⟩
    · rw [mark, setOb_ne _ _ hb]; exact ⟨rfl, rfl, rfl⟩
  cases hl : (s.obj a).loc with
  | none =>
    rw [hl] at h
    simp only [Option.some.injEq] at h
    subst h
    refine ⟨rfl, rfl, rfl, hobj, fun b hb => setOb_ne _ _ hb, by rw [mark, setOb_self],
      fun q => absurd q hi, ?_, fun _ => rfl, fun _ => rfl⟩
    intro _ _ _ l hl; cases hl
  | some l =>
    rw [hl] at h
    simp only at h
    by_cases hv : (s.volatile || s.keep) = true
    · rw [if_pos hv] at h; cases h
      refine ⟨rfl, rfl, rfl, hobj, fun b hb => setOb_ne _ _ hb, by rw [mark, setOb_self],
        fun q => absurd q hi, ?_, fun _ => rfl, fun _ => rfl⟩
      intro _ h1 h2; rw [h1, h2] at hv; cases hv
    · rw [if_neg hv] at h
      cases he : CellList.eraseCell s.store l with
      | none => rw [he] at h; cases h
      | some st =>
        rw [he] at h
        simp only [Option.some.injEq] at h
        subst h
        refine ⟨rfl, rfl, rfl, hobj, fun b hb => setOb_ne _ _ hb, ?_, fun q => absurd q hi, ?_, ?_, ?_⟩
        · show ((mark s a).obj a).inval = true
          rw [mark, setOb_self]
        · intro _ _ _ l' hl'
          cases hl'
          exact he
        · intro q; cases q
        · intro q; rw [q] at hv; simp at hv

theorem Inv.invalidate {img ids : List (Nat × Nat)} {null : Nat → Bool} {s s' : St} {a : Nat}
    (h : Inv img ids null s) (hi : invalidate s a = some s') : Inv img ids null s' := by
  obtain ⟨h1, _, _, h2, _⟩ := invalidate_facts hi
  exact ⟨h.objects, fun e he => by rw [(h2 _).1]; exact h.carried e he, by rw [h1]; exact h.low,
    by rw [h1]; exact h.last, h.split, h.distinct, fun b => by rw [(h2 b).2.1]; exact h.nulls b⟩

/-! ### The store -/

theorem SInv.core {ids : List (Nat × Nat)} {keep : Bool} {s s' : St} {u : List (Nat × Nat)}
    {f : List Nat} (h : SInv ids keep s u f) (hc : Core s s') : SInv ids keep s' u f := by
  obtain ⟨c1, _, c3, c4, c5⟩ := hc
  exact ⟨by rw [c5]; exact h.vol, by rw [c4]; exact h.keepEq, by rw [c3]; exact h.rep,
    by rw [c1]; exact h.here, by rw [c1]; exact h.known, by rw [c1]; exact h.mem⟩

/-- Adding an unknown object at the end of the store. -/
theorem SInv.push {ids : List (Nat × Nat)} {keep : Bool} {s s' : St} {u : List (Nat × Nat)}
    {f : List Nat} {a o : Nat} {l : Option Nat} (h : SInv ids keep s u f)
    (hp : CellList.pushBackLoc s.store a = some (l, s'.store)) (hl : (s'.obj a).loc = l)
    (hv : s'.volatile = s.volatile) (hk : s'.keep = s.keep)
    (hn : ∀ b, (s'.obj b).null = (s.obj b).null ∧ (s'.obj b).inval = (s.obj b).inval)
    (hne : ∀ b, b ≠ a → (s'.obj b).loc = (s.obj b).loc)
    (ha : a ∉ ids.map Prod.fst) (hnull : (s.obj a).null = false) (hinv : (s.obj a).inval = false) :
    ∃ u' f', SInv (ids ++ [(a, o)]) keep s' u' f' := by
  obtain ⟨i, st, f', h1, h2, h3, h4⟩ := pushBack_spec h.rep a
  rw [hp] at h2
  simp only [Option.some.injEq, Prod.mk.injEq] at h2
  obtain ⟨rfl, rfl⟩ := h2
  refine ⟨u ++ [(i, a)], f', by rw [hv]; exact h.vol, by rw [hk]; exact h.keepEq, h4, ?_, ?_, ?_⟩
  · intro e he
    rcases List.mem_append.mp he with he | he
    · have : e.2 ≠ a := by
        intro q
        exact ha (((h.mem e.2).mp (List.mem_map_of_mem he)).1 |> fun x => q ▸ x)
      rw [hne _ this]; exact h.here e he
    · simp at he; subst he; exact hl
  · intro b
    by_cases hb : b = a
    · subst hb
      rw [hl, (hn b).1, hnull]
      simp
    · rw [hne b hb, (hn b).1, h.known b]
      simp [hb]
  · intro b
    rw [(hn b).1, (hn b).2]
    by_cases hb : b = a
    · subst hb
      simp [hnull, hinv]
    · have := h.mem b
      simp only [List.map_append, List.mem_append, List.map_cons, List.map_nil, List.mem_cons,
        List.not_mem_nil, or_false, hb, this]

theorem SInv.bind {ids : List (Nat × Nat)} {keep : Bool} {s s' : St} {u : List (Nat × Nat)}
    {f : List Nat} {a : Nat} (h : SInv ids keep s u f) (hb : bind s a = some s')
    (ha : a ∉ ids.map Prod.fst) (hinv : (s.obj a).inval = false) :
    ∃ u' f', SInv (ids ++ [(a, (s'.obj a).oid)]) keep s' u' f' := by
  obtain ⟨_, _, b1, b2, _, b4, b5, b6, b7⟩ := bind_facts hb
  cases hn : (s.obj a).null with
  | true =>
    obtain ⟨c1, c2⟩ := b6 h.vol hn
    refine ⟨u, f, by rw [b2]; exact h.vol, by rw [b1]; exact h.keepEq, by rw [c1]; exact h.rep, ?_, ?_, ?_⟩
    · intro e he
      by_cases hb : e.2 = a
      · rw [hb, c2, ← hb]; exact h.here e he
      · rw [b5 _ hb]; exact h.here e he
    · intro b
      by_cases hb : b = a
      · subst hb
        rw [c2, (b4 b).1, h.known b, hn]; simp
      · rw [b5 b hb, h.known b]; simp [hb]
    · intro b
      rw [(b4 b).1, (b4 b).2, h.mem b]
      by_cases hb : b = a
      · subst hb; simp [hn]
      · simp [hb]
  | false =>
    obtain ⟨l, c1, c2⟩ := b7 h.vol hn
    exact h.push c1 c2 b2 b1 b4 (fun b hb => by rw [b5 b hb]) ha hn hinv

theorem SInv.invalidate {ids : List (Nat × Nat)} {keep : Bool} {s s' : St} {u : List (Nat × Nat)}
    {f : List Nat} {a : Nat} (h : SInv ids keep s u f) (hi : invalidate s a = some s') :
    ∃ u' f', SInv ids keep s' u' f' := by
  obtain ⟨_, i1, i2, i3, i4, i5, i6, i7, i8, i9⟩ := invalidate_facts hi
  by_cases hinv : (s.obj a).inval = true
  · rw [i6 hinv]; exact ⟨u, f, h⟩
  have hinv' : (s.obj a).inval = false := by simpa using hinv
  -- the store is unchanged
  have keepCase : s'.store = s.store → (keep = true ∨ (s.obj a).loc = none) →
      ∃ u' f', SInv ids keep s' u' f' := by
    intro hs hor
    refine ⟨u, f, by rw [i2]; exact h.vol, by rw [i1]; exact h.keepEq, by rw [hs]; exact h.rep, ?_, ?_, ?_⟩
    · intro e he; rw [(i3 _).2.2]; exact h.here e he
    · intro b; rw [(i3 b).2.2, (i3 b).2.1]; exact h.known b
    · intro b
      rw [(i3 b).2.1, h.mem b]
      by_cases hb : b = a
      · subst hb
        rw [i5, hinv']
        rcases hor with hk | hl
        · simp [hk]
        · have : ¬ (b ∈ ids.map Prod.fst ∧ (s.obj b).null = false) := fun q => by
            obtain ⟨l, q⟩ := (h.known b).mpr q
            rw [hl] at q; cases q
          constructor
          · rintro ⟨x, y, _⟩; exact absurd ⟨x, y⟩ this
          · rintro ⟨x, y, _⟩; exact absurd ⟨x, y⟩ this
      · rw [i4 b hb]
  cases hk : keep with
  | true =>
    subst hk
    exact keepCase (i9 h.keepEq) (Or.inl rfl)
  | false =>
    subst hk
    cases hl : (s.obj a).loc with
    | none => exact keepCase (i8 hl) (Or.inr hl)
    | some l =>
      have he := i7 hinv' h.vol h.keepEq l hl
      have hmem : a ∈ u.map Prod.snd :=
        (h.mem a).mpr ⟨((h.known a).mp ⟨l, hl⟩).1, ((h.known a).mp ⟨l, hl⟩).2, Or.inr hinv'⟩
      obtain ⟨e, heu, rfl⟩ := List.mem_map.mp hmem
      have hel : e.1 = l := by
        have := h.here e heu; rw [hl] at this; exact (Option.some.inj this).symm
      obtain ⟨a1, a2, rfl⟩ := List.append_of_mem heu
      obtain ⟨st, e1, e2, _⟩ := eraseCell_spec h.rep
      rw [hel, he] at e1
      obtain rfl := Option.some.inj e1
      refine ⟨a1 ++ a2, _, by rw [i2]; exact h.vol, by rw [i1]; exact h.keepEq, e2, ?_, ?_, ?_⟩
      · intro x hx; rw [(i3 _).2.2]
        refine h.here x ?_
        rcases List.mem_append.mp hx with hx | hx
        · exact List.mem_append.mpr (Or.inl hx)
        · exact List.mem_append.mpr (Or.inr (List.mem_cons_of_mem _ hx))
      · intro b; rw [(i3 b).2.2, (i3 b).2.1]; exact h.known b
      · intro b
        rw [(i3 b).2.1]
        by_cases hb : b = e.2
        · subst hb
          rw [i5]
          refine ⟨?_, fun q => by rcases q.2.2 with q | q <;> cases q⟩
          intro hx
          exfalso
          obtain ⟨x, hx, hxe⟩ := List.mem_map.mp hx
          have hx' : x ∈ a1 ++ e :: a2 := by
            rcases List.mem_append.mp hx with hx | hx
            · exact List.mem_append.mpr (Or.inl hx)
            · exact List.mem_append.mpr (Or.inr (List.mem_cons_of_mem _ hx))
          have hkey := h.here x hx'
          rw [hxe, hl] at hkey
          have hnd := (List.nodup_append.mp h.rep.nodup).1
          simp only [CellList.keys, List.map_append, List.map_cons] at hnd
          have hx1 : x.1 = e.1 := by rw [hel]; exact (Option.some.inj hkey).symm
          obtain ⟨n1, n2, n3⟩ := List.nodup_append.mp hnd
          rcases List.mem_append.mp hx with hx | hx
          · exact n3 x.1 (List.mem_map_of_mem hx) e.1 (by simp) hx1
          · exact (List.nodup_cons.mp n2).1 (hx1 ▸ List.mem_map_of_mem hx)
        · rw [i4 b hb, ← h.mem b]
          simp [hb]

/-! ### Loading -/

theorem foldl_max_le (l : List Nat) (m : Nat) : m ≤ l.foldl max m ∧ ∀ x ∈ l, x ≤ l.foldl max m := by
  induction l generalizing m with
  | nil => simp
  | cons y l ih =>
    obtain ⟨h1, h2⟩ := ih (max m y)
    simp only [List.foldl_cons]
    refine ⟨by omega, ?_⟩
    intro x hx
    rcases List.mem_cons.mp hx with rfl | hx
    · omega
    · exact h2 x hx

theorem foldl_max_lt (l : List Nat) (m b : Nat) (hm : m < b) (h : ∀ x ∈ l, x < b) :
    l.foldl max m < b := by
  induction l generalizing m with
  | nil => simpa using hm
  | cons y l ih =>
    simp only [List.foldl_cons]
    refine ih _ ?_ fun x hx => h x (List.mem_cons_of_mem _ hx)
    have := h y (by simp)
    omega

theorem lookup_of_mem {img : List (Nat × Nat)} (hnd : (img.map Prod.fst).Nodup) {e : Nat × Nat}
    (he : e ∈ img) : img.lookup e.1 = some e.2 := by
  induction img with
  | nil => simp at he
  | cons x l ih =>
    obtain ⟨k, v⟩ := x
    simp only [List.map_cons, List.nodup_cons] at hnd
    rcases List.mem_cons.mp he with rfl | he
    · simp [List.lookup]
    · have hne : e.1 ≠ k := fun q => hnd.1 (q ▸ List.mem_map_of_mem he)
      simp only [List.lookup, beq_eq_false_iff_ne.mpr hne]
      exact ih hnd.2 he

/-- Storing a list of unknown objects. -/
theorem storeAll_facts (l : List (Nat × Nat)) {s s' : St} (h : storeAll s (l.map Prod.fst) = some s') :
    s'.last = s.last ∧ (∀ b, (s'.obj b).oid = (s.obj b).oid ∧ (s'.obj b).null = (s.obj b).null ∧
      (s'.obj b).inval = (s.obj b).inval) ∧
    (∀ ids keep u f, SInv ids keep s u f → ((ids ++ l).map Prod.fst).Nodup →
      (∀ e ∈ l, (s.obj e.1).null = false) → (∀ e ∈ l, (s.obj e.1).inval = false) →
      ∃ u' f', SInv (ids ++ l) keep s' u' f') := by
  induction l generalizing s with
  | nil =>
    simp only [List.map_nil, storeAll, Option.some.injEq] at h
    subst h
    refine ⟨rfl, fun _ => ⟨rfl, rfl, rfl⟩, ?_⟩
    intro ids keep u f hi _ _ _
    exact ⟨u, f, by simpa using hi⟩
  | cons x l ih =>
    simp only [List.map_cons, storeAll] at h
    cases hp : put s x.1 with
    | none => rw [hp] at h; cases h
    | some s1 =>
      rw [hp] at h
      obtain ⟨p1, p2, p3, p4, p5, lc, p6, p7⟩ := put_facts hp
      obtain ⟨i1, i2, i3⟩ := ih h
      refine ⟨i1.trans p1, fun b => ⟨(i2 b).1.trans (p4 b).1, (i2 b).2.1.trans (p4 b).2.1,
        (i2 b).2.2.trans (p4 b).2.2⟩, ?_⟩
      intro ids keep u f hi hnd hnull hinv
      have hx : x.1 ∉ ids.map Prod.fst := by
        rw [List.map_append, List.nodup_append] at hnd
        intro q
        exact hnd.2.2 x.1 q x.1 (by simp) rfl
      obtain ⟨u1, f1, hi1⟩ := hi.push (o := x.2) p6 p7 p3 p2 (fun b => (p4 b).2)
        (fun b hb => by rw [p5 b hb]) hx (hnull x (by simp)) (hinv x (by simp))
      obtain ⟨u2, f2, hi2⟩ := i3 (ids ++ [(x.1, x.2)]) keep u1 f1 hi1 (by simpa using hnd)
        (fun e he => by rw [(p4 _).2.1]; exact hnull e (List.mem_cons_of_mem _ he))
        (fun e he => by rw [(p4 _).2.2]; exact hinv e (List.mem_cons_of_mem _ he))
      exact ⟨u2, f2, by simpa using hi2⟩

theorem load_inv {volatile keep : Bool} {null : Nat → Bool} {img : List (Nat × Nat)} {now : Int} {s : St}
    (himg : Image null img) (hsmall : ∀ e ∈ img, e.2 < 2147483648) (hlen : img.length ≤ 2147483648)
    (h : load (fresh volatile keep null now) img = some s) :
    Inv img img null s ∧ s.volatile = volatile ∧
    (volatile = false → ∃ u f, SInv img keep s u f) := by
  unfold load at h
  simp only at h
  obtain ⟨h1, h2, h3⟩ := storeAll_facts img h
  have hm : max ((img.map Prod.snd).foldl max 0) (img.length - 1) < 2147483648 := by
    have := foldl_max_lt (img.map Prod.snd) 0 2147483648 (by omega) (by
      intro x hx; obtain ⟨e, he, rfl⟩ := List.mem_map.mp hx; exact hsmall e he)
    omega
  have hlast : s.last = (max ((img.map Prod.snd).foldl max 0) (img.length - 1) : Nat) := by
    rw [h1]
    show toI32 _ = _
    unfold toI32
    rw [Nat.mod_eq_of_lt (by omega), if_pos hm]
  have hvol : ∀ (l : List Nat) (s s' : St), storeAll s l = some s' → s'.volatile = s.volatile := by
    intro l
    induction l with
    | nil => intro s s' q; simp only [storeAll, Option.some.injEq] at q; subst q; rfl
    | cons a l ih =>
      intro s s' q
      simp only [storeAll] at q
      cases hp : put s a with
      | none => rw [hp] at q; cases q
      | some s1 =>
        rw [hp] at q
        rw [ih _ _ q, (put_facts hp).2.2.1]
  refine ⟨⟨himg.objects, ?_, ?_, by omega, ⟨[], by simp⟩, himg.ids, ?_⟩, hvol _ _ _ h, ?_⟩
  · intro e he
    rw [(h2 _).1]
    simp only [fresh]
    rw [lookup_of_mem himg.objects he]
    rfl
  · intro e he
    have := (foldl_max_le (img.map Prod.snd) 0).2 e.2 (List.mem_map_of_mem he)
    omega
  · intro b; rw [(h2 b).2.1]; rfl
  · intro hv
    subst hv
    have base : SInv [] keep { fresh false keep null now with
        obj := fun b => { (fresh false keep null now).obj b with
          oid := (img.lookup b).getD ((fresh false keep null now).obj b).oid },
        last := toI32 (max ((img.map Prod.snd).foldl max 0) (img.length - 1)) } [] [] := by
      refine ⟨rfl, rfl, CellList.rep_empty, by simp, ?_, by simp⟩
      intro a
      simp [fresh]
    have := h3 [] keep [] [] base (by simpa using himg.objects) (fun e he => himg.null e he)
      (fun e _ => rfl)
    simpa using this

/-! ## The partial forms -/

/-- What callers must respect: an image with identifiers below 2^31; an object handed to
`inject_notification` or `inject_hlps` is new and valid; and, where injection does not itself detect
known objects (`MemVolatile`; null programs), an object is injected once. -/
inductive Disciplined (volatile keep : Bool) (null : Nat → Bool) (img : List (Nat × Nat)) :
    St → List (Nat × Nat) → Prop
  | load {now : Int} {s : St} : (∀ e ∈ img, e.2 < 2147483648) → img.length ≤ 2147483648 →
      load (fresh volatile keep null now) img = some s → Disciplined volatile keep null img s img
  | step {s s' : St} {ids : List (Nat × Nat)} {op : Op} {e : Ev} :
      Disciplined volatile keep null img s ids → step s op = some (s', e) →
      (∀ v, op = .notify v → v.obj ∉ ids.map Prod.fst ∧ (s.obj v.obj).inval = false) →
      (∀ a, boundBy e = some a → (volatile = true ∨ null a = true) → a ∉ ids.map Prod.fst) →
      Disciplined volatile keep null img s' (ids ++ given s' e)

theorem disciplined_inv {volatile keep : Bool} {null : Nat → Bool} {img : List (Nat × Nat)} {s : St}
    {ids : List (Nat × Nat)} (himg : Image null img) (h : Disciplined volatile keep null img s ids) :
    Inv img ids null s ∧ s.volatile = volatile ∧ (volatile = false → ∃ u f, SInv ids keep s u f) := by
  induction h with
  | load h1 h2 h3 => exact load_inv himg h1 h2 h3
  | @step s s' ids op e _ hs hd1 hd2 ih =>
    obtain ⟨i1, i2, i3⟩ := ih
    rcases step_cases hs with ⟨hc, hb⟩ | ⟨a, s0, hc, hbd, hb, hor⟩ | ⟨a, hi, hb⟩
    · have hg : given s' e = [] := by simp [given, hb]
      rw [hg, List.append_nil]
      refine ⟨i1.core hc, by rw [hc.2.2.2.2]; exact i2, ?_⟩
      intro hv
      obtain ⟨u, f, h3⟩ := i3 hv
      exact ⟨u, f, h3.core hc⟩
    · have hg : given s' e = [(a, (s'.obj a).oid)] := by simp [given, hb]
      rw [hg]
      have ha : a ∉ ids.map Prod.fst := by
        rcases hor with ⟨v, rfl, rfl⟩ | ⟨hl, _⟩
        · exact (hd1 v rfl).1
        · by_cases hvn : volatile = true ∨ null a = true
          · exact hd2 a hb hvn
          · have hv : volatile = false := by
              cases volatile
              · rfl
              · exact absurd (Or.inl rfl) hvn
            have hn : null a = false := by
              cases hna : null a
              · rfl
              · exact absurd (Or.inr hna) hvn
            obtain ⟨u, f, h3⟩ := i3 hv
            intro q
            obtain ⟨l, hl'⟩ := (h3.known a).mpr ⟨q, by rw [i1.nulls a]; exact hn⟩
            rw [hl] at hl'; cases hl'
      have hinv : (s0.obj a).inval = false := by
        rw [hc.1]
        rcases hor with ⟨v, rfl, rfl⟩ | ⟨_, hl⟩
        · exact (hd1 v rfl).2
        · exact hl
      refine ⟨(i1.core hc).bind hbd ha, ?_, ?_⟩
      · rw [(bind_facts hbd).2.2.2.1, hc.2.2.2.2]; exact i2
      · intro hv
        obtain ⟨u, f, h3⟩ := i3 hv
        exact (h3.core hc).bind hbd ha hinv
    · have hg : given s' e = [] := by simp [given, hb]
      rw [hg, List.append_nil]
      refine ⟨i1.invalidate hi, by rw [(invalidate_facts hi).2.2.1]; exact i2, ?_⟩
      intro hv
      obtain ⟨u, f, h3⟩ := i3 hv
      exact h3.invalidate hi

/-- C30, partial: for disciplined runs, of either kind of memory. -/
theorem C30_identifiers_partial (volatile keep : Bool) (null : Nat → Bool) (img : List (Nat × Nat))
    (s : St) (ids : List (Nat × Nat)) (himg : Image null img)
    (h : Disciplined volatile keep null img s ids) :
    (ids.map Prod.snd).Nodup ∧ (∀ e ∈ ids, (s.obj e.1).oid = e.2) ∧
    ∃ new, ids = img ++ new ∧ (new.map Prod.snd).Pairwise (· < ·) ∧
      ∀ a ∈ img, ∀ b ∈ new, a.2 < b.2 := by
  obtain ⟨h1, _⟩ := disciplined_inv himg h
  exact ⟨h1.distinct, h1.carried, h1.split⟩

/-- C30: in a `MemStatic`, injecting views (any number per object, at once or delayed) respects the
discipline by itself: an object that is not a null program is given an identifier at most once,
whichever way it is injected. -/
theorem C30_injection_binds_once (keep : Bool) (null : Nat → Bool) (img : List (Nat × Nat))
    (s s' : St) (ids : List (Nat × Nat)) (himg : Image null img)
    (h : Disciplined false keep null img s ids) (op : Op) (e : Ev) (hop : ∀ v, op ≠ .notify v)
    (hs : step s op = some (s', e)) (a : Nat) (ha : boundBy e = some a) (hn : null a = false) :
    a ∉ ids.map Prod.fst := by
  obtain ⟨h1, _, h3⟩ := disciplined_inv himg h
  obtain ⟨u, f, h3⟩ := h3 rfl
  rcases step_cases hs with ⟨hc, hb⟩ | ⟨b, s0, hc, hbd, hb, hor⟩ | ⟨b, hi, hb⟩
  · rw [ha] at hb; cases hb
  · rw [ha] at hb
    obtain rfl := Option.some.inj hb
    rcases hor with ⟨v, rfl, _⟩ | ⟨hl, _⟩
    · exact absurd rfl (hop v)
    · intro q
      obtain ⟨l, hl'⟩ := (h3.known a).mpr ⟨q, by rw [h1.nulls a]; exact hn⟩
      rw [hl] at hl'; cases hl'
  · rw [ha] at hb; cases hb

/-- C64, partial: for disciplined runs. -/
theorem C64_store_partial (keep : Bool) (null : Nat → Bool) (img : List (Nat × Nat)) (s : St)
    (ids : List (Nat × Nat)) (himg : Image null img) (h : Disciplined false keep null img s ids) :
    ∃ es, CellList.entries s.store = some es ∧ (es.map Prod.snd).Nodup ∧
      ∀ a, a ∈ es.map Prod.snd ↔
        (a ∈ ids.map Prod.fst ∧ null a = false ∧ (keep = true ∨ (s.obj a).inval = false)) := by
  obtain ⟨h1, _, h3⟩ := disciplined_inv himg h
  obtain ⟨u, f, h3⟩ := h3 rfl
  refine ⟨u, entries_spec h3.rep, ?_, ?_⟩
  · have hnd : (u.map Prod.fst).Nodup := (List.nodup_append.mp h3.rep.nodup).1
    have hinj : ∀ x ∈ u, ∀ y ∈ u, x.2 = y.2 → x.1 = y.1 := by
      intro x hx y hy hxy
      have a := h3.here x hx
      have b := h3.here y hy
      rw [hxy, b] at a
      exact (Option.some.inj a).symm
    clear h3 h
    induction u with
    | nil => simp
    | cons x u ih =>
      simp only [List.map_cons, List.nodup_cons] at hnd ⊢
      refine ⟨?_, ih hnd.2 fun y hy z hz => hinj y (List.mem_cons_of_mem _ hy) z (List.mem_cons_of_mem _ hz)⟩
      intro q
      obtain ⟨y, hy, hyx⟩ := List.mem_map.mp q
      apply hnd.1
      rw [← hinj y (List.mem_cons_of_mem _ hy) x (by simp) hyx]
      exact List.mem_map_of_mem hy
  · intro a
    rw [h3.mem a, h1.nulls a]

/-! ## C31 -/

/-- Whether the object and the host of a view are valid. -/
def Valid (s : St) (v : View) : Prop := (s.obj v.obj).inval = false ∧ (s.obj v.host).inval = false

/-- C31 in full: whatever happened before, a step that injects a view does so when its time has come,
into a valid group, and the object is valid. -/
def C31_full : Prop :=
  ∀ (volatile keep : Bool) (null : Nat → Bool) (img : List (Nat × Nat)) (s : St)
    (ids : List (Nat × Nat)), Run volatile keep null img s ids →
    ∀ op s' v existing, step s op = some (s', .injected v existing) → v.ijt ≤ s.now ∧ Valid s v

theorem put_timeQ {s s' : St} {a : Nat} (h : put s a = some s') : s'.timeQ = s.timeQ := by
  unfold put at h
  split at h
  · cases h; rfl
  · cases h

theorem bind_timeQ {s s' : St} {a : Nat} (h : bind s a = some s') : s'.timeQ = s.timeQ := by
  unfold bind at h
  split at h
  · cases h
  · simp only at h
    split at h
    · cases h; rfl
    · split at h
      · cases h; rfl
      · rw [put_timeQ h]; rfl

theorem storeAll_timeQ (l : List Nat) {s s' : St} (h : storeAll s l = some s') : s'.timeQ = s.timeQ := by
  induction l generalizing s with
  | nil => simp only [storeAll, Option.some.injEq] at h; subst h; rfl
  | cons a l ih =>
    simp only [storeAll] at h
    cases hp : put s a with
    | none => rw [hp] at h; cases h
    | some s1 => rw [hp] at h; rw [ih h, put_timeQ hp]

/-- What `inject` does, by event. -/
theorem inject_spec {s s' : St} {v : View} {e : Ev} (h : inject s v = some (s', e)) :
    (¬ Valid s v ∧ s' = s ∧ e = .dropped v) ∨
    (Valid s v ∧ v.ijt ≤ s.now ∧ s'.timeQ = s.timeQ ∧ ∃ x, e = .injected v x) ∨
    (Valid s v ∧ s.now < v.ijt ∧ e = .queued v ∧ ∃ x, s' = { s with timeQ := s.timeQ ++ [⟨v.ijt, v, x⟩] }) := by
  unfold inject at h
  by_cases h1 : (s.obj v.obj).inval = true
  · rw [if_pos h1] at h; cases h
    exact Or.inl ⟨fun q => absurd h1 (by rw [q.1]; simp), rfl, rfl⟩
  rw [if_neg h1] at h
  by_cases h2 : (s.obj v.host).inval = true
  · rw [if_pos h2] at h; cases h
    exact Or.inl ⟨fun q => absurd h2 (by rw [q.2]; simp), rfl, rfl⟩
  rw [if_neg h2] at h
  have hv : Valid s v := ⟨by simpa using h1, by simpa using h2⟩
  by_cases h4 : v.ijt ≤ s.now
  · simp only [if_pos h4] at h
    split at h
    · cases h; exact Or.inr (Or.inl ⟨hv, h4, rfl, _, rfl⟩)
    · cases hb : bind s v.obj with
      | none => rw [hb] at h; cases h
      | some s1 =>
        rw [hb] at h; cases h
        exact Or.inr (Or.inl ⟨hv, h4, bind_timeQ hb, _, rfl⟩)
  · simp only [if_neg h4] at h
    split at h
    · cases h; exact Or.inr (Or.inr ⟨hv, by omega, rfl, _, rfl⟩)
    · cases h; exact Or.inr (Or.inr ⟨hv, by omega, rfl, _, rfl⟩)

/-- A job's target is the injection time of its view. -/
theorem queues_ok {volatile keep : Bool} {null : Nat → Bool} {img : List (Nat × Nat)} {s : St}
    {ids : List (Nat × Nat)} (h : Run volatile keep null img s ids) :
    ∀ j ∈ s.timeQ, j.target = j.view.ijt := by
  have viaInject : ∀ {s s' : St} {v : View} {e : Ev}, inject s v = some (s', e) →
      (∀ j ∈ s.timeQ, j.target = j.view.ijt) → ∀ j ∈ s'.timeQ, j.target = j.view.ijt := by
    intro s s' v e hi hq
    rcases inject_spec hi with ⟨_, rfl, _⟩ | ⟨_, _, h, _⟩ | ⟨_, _, _, x, rfl⟩
    · exact hq
    · rw [h]; exact hq
    · intro j hj
      rcases List.mem_append.mp hj with hj | hj
      · exact hq j hj
      · simp only [List.mem_cons, List.not_mem_nil, or_false] at hj; subst hj; rfl
  induction h with
  | load h =>
    unfold load at h
    simp only at h
    rw [storeAll_timeQ _ h]
    simp [fresh]
  | @step s s' ids op e _ hs ih =>
    cases op with
    | submit v => exact viaInject hs ih
    | submitAsync v =>
      simp only [step, injectAsync] at hs
      split at hs
      · cases hs; exact ih
      · split at hs
        · cases hs; exact ih
        · split at hs
          · cases hs; exact ih
          · cases hs
            intro j hj
            rcases List.mem_append.mp hj with hj | hj
            · exact ih j hj
            · simp only [List.mem_cons, List.not_mem_nil, or_false] at hj; subst hj; rfl
    | notify v =>
      simp only [step, notify] at hs
      cases hb : bind s v.obj with
      | none => rw [hb] at hs; cases hs
      | some s1 => rw [hb] at hs; cases hs; rw [bind_timeQ hb]; exact ih
    | invalidate a =>
      simp only [step, invalidate] at hs
      split at hs
      · cases hs; exact ih
      · cases hl : (s.obj a).loc with
        | none => rw [hl] at hs; cases hs; exact ih
        | some l =>
          rw [hl] at hs
          simp only at hs
          split at hs
          · cases hs; exact ih
          · cases he : CellList.eraseCell s.store l with
            | none => rw [he] at hs; cases hs
            | some st => rw [he] at hs; cases hs; exact ih
    | advance d => cases hs; exact ih
    | timeJob k =>
      simp only [step] at hs
      cases hj : s.timeQ[k]? with
      | none => rw [hj] at hs; cases hs
      | some j =>
        rw [hj] at hs
        simp only at hs
        have hq : ∀ j ∈ s.timeQ.eraseIdx k, j.target = j.view.ijt :=
          fun j hj => ih j (List.mem_of_mem_eraseIdx hj)
        split at hs
        · unfold runJob at hs
          split at hs
          · cases hs; exact hq
          · exact viaInject hs hq
        · cases hs
    | redJob k =>
      simp only [step] at hs
      cases hj : s.redQ[k]? with
      | none => rw [hj] at hs; cases hs
      | some v => rw [hj] at hs; exact viaInject hs ih

/-- The step is the execution of a job created for an object that was already registered
(`EInjectionJob`). -/
def ViaEJob (s : St) (op : Op) : Prop := ∃ k j, op = .timeJob k ∧ s.timeQ[k]? = some j ∧ j.existing = true

/-- How an injection comes about. -/
theorem injected_by {s s' : St} {op : Op} {v : View} {x : Bool} (h : step s op = some (s', .injected v x)) :
    (v.ijt ≤ s.now ∧ Valid s v) ∨
    ∃ k j, op = .timeJob k ∧ s.timeQ[k]? = some j ∧ j.existing = true ∧ j.target ≤ s.now ∧ j.view = v := by
  have viaInject : ∀ (s0 : St) (w : View), s0.now = s.now → s0.obj = s.obj →
      inject s0 w = some (s', .injected v x) → v.ijt ≤ s.now ∧ Valid s v := by
    intro s0 w hn ho hi
    rcases inject_spec hi with ⟨_, _, q⟩ | ⟨q1, q2, _, y, q⟩ | ⟨_, _, q, _⟩
    · cases q
    · cases q
      unfold Valid at q1 ⊢
      rw [hn] at q2; rw [ho] at q1
      exact ⟨q2, q1⟩
    · cases q
  cases op with
  | submit w => exact Or.inl (viaInject s w rfl rfl h)
  | submitAsync w =>
    simp only [step, injectAsync] at h
    split at h
    · cases h
    · split at h
      · cases h
      · split at h <;> cases h
  | notify w =>
    simp only [step, notify] at h
    cases hb : bind s w.obj with
    | none => rw [hb] at h; cases h
    | some s1 => rw [hb] at h; cases h
  | invalidate a =>
    simp only [step] at h
    cases hb : invalidate s a with
    | none => rw [hb] at h; cases h
    | some s1 => rw [hb] at h; cases h
  | advance d => cases h
  | timeJob k =>
    simp only [step] at h
    cases hj : s.timeQ[k]? with
    | none => rw [hj] at h; cases h
    | some j =>
      rw [hj] at h
      simp only at h
      by_cases ht : j.target ≤ s.now
      · rw [if_pos ht] at h
        unfold runJob at h
        by_cases he : j.existing = true
        · rw [if_pos he] at h; cases h
          exact Or.inr ⟨k, j, rfl, hj, he, ht, rfl⟩
        · rw [if_neg he] at h
          left
          refine viaInject _ _ ?_ ?_ h
          · rfl
          · rfl
      · rw [if_neg ht] at h; cases h
  | redJob k =>
    simp only [step] at h
    cases hj : s.redQ[k]? with
    | none => rw [hj] at h; cases h
    | some w =>
      rw [hj] at h
      simp only at h
      left
      refine viaInject _ _ ?_ ?_ h
      · rfl
      · rfl

/-- C31: nothing is injected early, in any run. -/
theorem C31_never_early (volatile keep : Bool) (null : Nat → Bool) (img : List (Nat × Nat)) (s : St)
    (ids : List (Nat × Nat)) (h : Run volatile keep null img s ids) (op : Op) (s' : St) (v : View)
    (existing : Bool) (hs : step s op = some (s', .injected v existing)) : v.ijt ≤ s.now := by
  rcases injected_by hs with h1 | ⟨k, j, _, h2, _, h3, rfl⟩
  · exact h1.1
  · have := queues_ok h j (List.mem_of_getElem? h2)
    omega

/-- C31: what becomes of a submitted view: dropped if its object or host is invalid, else injected at
once if its time has come, else left waiting with its injection time as target. -/
theorem C31_submitted (s s' : St) (v : View) (e : Ev) (h : step s (.submit v) = some (s', e)) :
    (¬ Valid s v ∧ e = .dropped v ∧ s' = s) ∨
    (Valid s v ∧ v.ijt ≤ s.now ∧ ∃ x, e = .injected v x) ∨
    (Valid s v ∧ s.now < v.ijt ∧ e = .queued v ∧ ∃ x, s'.timeQ = s.timeQ ++ [⟨v.ijt, v, x⟩]) := by
  rcases inject_spec h with ⟨a, b, c⟩ | ⟨a, b, _, c⟩ | ⟨a, b, c, x, d⟩
  · exact Or.inl ⟨a, c, b⟩
  · exact Or.inr (Or.inl ⟨a, b, c⟩)
  · exact Or.inr (Or.inr ⟨a, b, c, x, by rw [d]⟩)

/-- C31: the same for a view submitted asynchronously: if its time has come it is handed to the
reduction cores, which inject it or drop it (`C31_handed_over`), else it is left waiting. -/
theorem C31_submitted_async (s s' : St) (v : View) (e : Ev)
    (h : step s (.submitAsync v) = some (s', e)) :
    (¬ Valid s v ∧ e = .dropped v ∧ s' = s) ∨
    (Valid s v ∧ v.ijt ≤ s.now ∧ e = .queued v ∧ s'.redQ = s.redQ ++ [v] ∧ s'.timeQ = s.timeQ) ∨
    (Valid s v ∧ s.now < v.ijt ∧ e = .queued v ∧ s'.redQ = s.redQ ∧
      ∃ x, s'.timeQ = s.timeQ ++ [⟨v.ijt, v, x⟩]) := by
  simp only [step, injectAsync] at h
  by_cases h1 : (s.obj v.obj).inval = true
  · rw [if_pos h1] at h; cases h
    exact Or.inl ⟨fun q => absurd h1 (by rw [q.1]; simp), rfl, rfl⟩
  rw [if_neg h1] at h
  by_cases h2 : (s.obj v.host).inval = true
  · rw [if_pos h2] at h; cases h
    exact Or.inl ⟨fun q => absurd h2 (by rw [q.2]; simp), rfl, rfl⟩
  rw [if_neg h2] at h
  have hv : Valid s v := ⟨by simpa using h1, by simpa using h2⟩
  by_cases h4 : v.ijt ≤ s.now
  · rw [if_pos h4] at h; cases h
    exact Or.inr (Or.inl ⟨hv, h4, rfl, rfl, rfl⟩)
  · rw [if_neg h4] at h; cases h
    exact Or.inr (Or.inr ⟨hv, by omega, rfl, rfl, _, rfl⟩)

/-- C31: what a reduction core does with a view handed over to it. -/
theorem C31_handed_over (s s' : St) (k : Nat) (v : View) (hv : s.redQ[k]? = some v) (e : Ev)
    (hs : step s (.redJob k) = some (s', e)) :
    (¬ Valid s v ∧ e = .dropped v) ∨ (Valid s v ∧ v.ijt ≤ s.now ∧ ∃ x, e = .injected v x) ∨
    (s.now < v.ijt ∧ e = .queued v) := by
  simp only [step, hv] at hs
  rcases inject_spec hs with ⟨a, _, c⟩ | ⟨a, b, _, c⟩ | ⟨_, b, c, _⟩
  · exact Or.inl ⟨a, c⟩
  · exact Or.inr (Or.inl ⟨a, b, c⟩)
  · exact Or.inr (Or.inr ⟨b, c⟩)

/-- C31: a waiting view is taken from the queue once, and is then injected or dropped: it never goes
back to the queue. -/
theorem C31_delayed_once (volatile keep : Bool) (null : Nat → Bool) (img : List (Nat × Nat)) (s : St)
    (ids : List (Nat × Nat)) (h : Run volatile keep null img s ids) (k : Nat) (j : Job)
    (hj : s.timeQ[k]? = some j) (s' : St) (e : Ev) (hs : step s (.timeJob k) = some (s', e)) :
    s'.timeQ = s.timeQ.eraseIdx k ∧ (e = .dropped j.view ∨ ∃ x, e = .injected j.view x) := by
  have hq := queues_ok h j (List.mem_of_getElem? hj)
  simp only [step, hj] at hs
  by_cases ht : j.target ≤ s.now
  · rw [if_pos ht] at hs
    unfold runJob at hs
    by_cases he : j.existing = true
    · rw [if_pos he] at hs; cases hs; exact ⟨rfl, Or.inr ⟨_, rfl⟩⟩
    · rw [if_neg he] at hs
      rcases inject_spec hs with ⟨_, rfl, q⟩ | ⟨_, _, q1, q2⟩ | ⟨_, q, _, _⟩
      · exact ⟨rfl, Or.inl q⟩
      · exact ⟨q1, Or.inr q2⟩
      · exfalso
        have : s.now < j.view.ijt := q
        omega
  · rw [if_neg ht] at hs; cases hs

/-- C31, partial: validity, for every injection except those by a job created for an object that was
registered when the view was submitted.  Missing: those (see `C31_injection_violated`). -/
theorem C31_injection_partial (s : St) (op : Op) (hE : ¬ ViaEJob s op) (s' : St) (v : View)
    (existing : Bool) (hs : step s op = some (s', .injected v existing)) : Valid s v := by
  rcases injected_by hs with h1 | ⟨k, j, h1, h2, h3, _⟩
  · exact h1.2
  · exact absurd ⟨k, j, h1, h2, h3⟩ hE

/-! ## Witnesses -/

/-- Run a list of operations. -/
def exec (s : St) (ids : List (Nat × Nat)) : List Op → Option (St × List (Nat × Nat))
  | [] => some (s, ids)
  | op :: l => match step s op with
    | some (s', e) => exec s' (ids ++ given s' e) l
    | none => none

theorem exec_run {volatile keep : Bool} {null : Nat → Bool} {img : List (Nat × Nat)} (l : List Op)
    {s s' : St} {ids ids' : List (Nat × Nat)} (h : Run volatile keep null img s ids)
    (he : exec s ids l = some (s', ids')) : Run volatile keep null img s' ids' := by
  induction l generalizing s ids with
  | nil => simp only [exec, Option.some.injEq, Prod.mk.injEq] at he; obtain ⟨rfl, rfl⟩ := he; exact h
  | cons op l ih =>
    simp only [exec] at he
    cases hs : step s op with
    | none => rw [hs] at he; cases he
    | some r =>
      obtain ⟨s1, e⟩ := r
      rw [hs] at he
      exact ih (.step h hs) he

/-- Load and run. -/
def start (volatile : Bool) (img : List (Nat × Nat)) (l : List Op) : Option (St × List (Nat × Nat)) :=
  match load (fresh volatile false (fun _ => false) 0) img with
  | some s => exec s img l
  | none => none

theorem start_run {volatile : Bool} {img : List (Nat × Nat)} {l : List Op} {r : St × List (Nat × Nat)}
    (h : start volatile img l = some r) : Run volatile false (fun _ => false) img r.1 r.2 := by
  unfold start at h
  cases hl : load (fresh volatile false (fun _ => false) 0) img with
  | none => rw [hl] at h; cases h
  | some s => rw [hl] at h; exact exec_run l (.load hl) h

/-- A root group, 10, with identifier 0 and an output group, 11, with identifier 1. -/
def img0 : List (Nat × Nat) := [(10, 0), (11, 1)]

theorem img0_ok : Image (fun _ => false) img0 := ⟨by decide, by decide, by decide, by decide⟩

/-- Likewise with a third object, never injected on its own, that carries no identifier. -/
def img1 : List (Nat × Nat) := [(10, 0), (11, 1), (12, 4294967295)]

theorem img1_ok : Image (fun _ => false) img1 := ⟨by decide, by decide, by decide, by decide⟩

/-- C30 is violated. (1) A notification injected into two output groups is given two identifiers
(hlp_controller.cpp:301-309, pgm_overlay.cpp:504-509). (2) With `MemVolatile`, so is any object
injected in two groups. (3) After an image holding an object without identifier is loaded, the first
new object is given identifier 0, that of the root. -/
theorem C30_identifiers_violated : ¬ C30_full ∧
    (∃ s ids, Run false false (fun _ => false) img0 s ids ∧ ids = img0 ++ [(20, 2), (20, 3)] ∧
      (s.obj 20).oid = 3) ∧
    (∃ s ids, Run true false (fun _ => false) img0 s ids ∧ ids = img0 ++ [(20, 2), (20, 3)] ∧
      (s.obj 20).oid = 3) ∧
    (∃ s ids, Run false false (fun _ => false) img1 s ids ∧ ids = img1 ++ [(20, 0)]) := by
  have w1 : ∃ s ids, Run false false (fun _ => false) img0 s ids ∧ ids = img0 ++ [(20, 2), (20, 3)] ∧
      (s.obj 20).oid = 3 := by
    have h : ((start false img0 [.notify ⟨20, 10, 0⟩, .notify ⟨20, 11, 0⟩]).map fun r =>
        (r.2, (r.1.obj 20).oid)) = some (img0 ++ [(20, 2), (20, 3)], 3) := by decide
    cases hr : start false img0 [.notify ⟨20, 10, 0⟩, .notify ⟨20, 11, 0⟩] with
    | none => rw [hr] at h; cases h
    | some r =>
      rw [hr] at h
      simp only [Option.map_some, Option.some.injEq, Prod.mk.injEq] at h
      exact ⟨r.1, r.2, start_run hr, h.1, h.2⟩
  have w2 : ∃ s ids, Run true false (fun _ => false) img0 s ids ∧ ids = img0 ++ [(20, 2), (20, 3)] ∧
      (s.obj 20).oid = 3 := by
    have h : ((start true img0 [.submit ⟨20, 10, 0⟩, .submit ⟨20, 11, 0⟩]).map fun r =>
        (r.2, (r.1.obj 20).oid)) = some (img0 ++ [(20, 2), (20, 3)], 3) := by decide
    cases hr : start true img0 [.submit ⟨20, 10, 0⟩, .submit ⟨20, 11, 0⟩] with
    | none => rw [hr] at h; cases h
    | some r =>
      rw [hr] at h
      simp only [Option.map_some, Option.some.injEq, Prod.mk.injEq] at h
      exact ⟨r.1, r.2, start_run hr, h.1, h.2⟩
  have w3 : ∃ s ids, Run false false (fun _ => false) img1 s ids ∧ ids = img1 ++ [(20, 0)] := by
    have h : ((start false img1 [.submit ⟨20, 10, 0⟩]).map fun r => r.2) =
        some (img1 ++ [(20, 0)]) := by decide
    cases hr : start false img1 [.submit ⟨20, 10, 0⟩] with
    | none => rw [hr] at h; cases h
    | some r =>
      rw [hr] at h
      simp only [Option.map_some, Option.some.injEq] at h
      exact ⟨r.1, r.2, start_run hr, h⟩
  refine ⟨?_, w1, w2, w3⟩
  intro hf
  obtain ⟨s, ids, hr, rfl, _⟩ := w3
  have := (hf _ _ _ _ s _ img1_ok hr).1
  exact absurd this (by decide)

/-- C64 is violated: a notification injected into two groups is listed twice, and stays in the list
once after it has been invalidated. -/
theorem C64_store_violated : ¬ C64_full ∧
    ∃ s ids, Run false false (fun _ => false) img0 s ids ∧ (s.obj 20).inval = true ∧
      (CellList.entries s.store).map (·.map Prod.snd) = some [10, 11, 20] := by
  have w : ∃ s ids, Run false false (fun _ => false) img0 s ids ∧ (s.obj 20).inval = true ∧
      (CellList.entries s.store).map (·.map Prod.snd) = some [10, 11, 20] := by
    have h : ((start false img0 [.notify ⟨20, 10, 0⟩, .notify ⟨20, 11, 0⟩, .invalidate 20]).map fun r =>
        ((r.1.obj 20).inval, (CellList.entries r.1.store).map (·.map Prod.snd))) =
        some (true, some [10, 11, 20]) := by decide
    cases hr : start false img0 [.notify ⟨20, 10, 0⟩, .notify ⟨20, 11, 0⟩, .invalidate 20] with
    | none => rw [hr] at h; cases h
    | some r =>
      rw [hr] at h
      simp only [Option.map_some, Option.some.injEq, Prod.mk.injEq] at h
      exact ⟨r.1, r.2, start_run hr, h.1, h.2⟩
  refine ⟨?_, w⟩
  intro hf
  obtain ⟨s, ids, hr, h1, h2⟩ := w
  obtain ⟨es, he, _, hm⟩ := hf _ _ _ s ids img0_ok hr
  rw [he] at h2
  simp only [Option.map_some, Option.some.injEq] at h2
  have := ((hm 20).mp (by rw [h2]; simp)).2.2
  rw [h1] at this
  simp at this

/-- C31 is violated: an object in memory is to be injected in a second group at time 5, and is
invalidated at time 1; at time 5 the invalid object is injected all the same. -/
theorem C31_injection_violated : ¬ C31_full ∧
    ∃ s ids s', Run false false (fun _ => false) img0 s ids ∧ (s.obj 20).inval = true ∧
      step s (.timeJob 0) = some (s', .injected ⟨20, 11, 5⟩ true) := by
  have w : ∃ s ids s', Run false false (fun _ => false) img0 s ids ∧ (s.obj 20).inval = true ∧
      step s (.timeJob 0) = some (s', .injected ⟨20, 11, 5⟩ true) := by
    have h : ((start false img0 [.submit ⟨20, 10, 0⟩, .submit ⟨20, 11, 5⟩, .advance 1, .invalidate 20,
        .advance 4]).map fun r => ((r.1.obj 20).inval, (step r.1 (.timeJob 0)).map Prod.snd)) =
        some (true, some (.injected ⟨20, 11, 5⟩ true)) := by decide
    cases hr : start false img0 [.submit ⟨20, 10, 0⟩, .submit ⟨20, 11, 5⟩, .advance 1, .invalidate 20,
        .advance 4] with
    | none => rw [hr] at h; cases h
    | some r =>
      rw [hr] at h
      simp only [Option.map_some, Option.some.injEq, Prod.mk.injEq] at h
      cases hs : step r.1 (.timeJob 0) with
      | none => rw [hs] at h; cases h.2
      | some q =>
        obtain ⟨s', e⟩ := q
        rw [hs] at h
        simp only [Option.map_some, Option.some.injEq] at h
        exact ⟨r.1, r.2, s', start_run hr, h.1, by rw [hs, h.2]⟩
  refine ⟨?_, w⟩
  intro hf
  obtain ⟨s, ids, s', hr, h1, h2⟩ := w
  have := (hf _ _ _ _ s ids hr _ _ _ _ h2).2.1
  rw [h1] at this
  cases this

/-- The partial theorems apply to runs such as this: an object is injected, a second view of it is
delayed, it is notified about, another is invalidated. -/
example : ∃ s ids, Disciplined false false (fun _ => false) img0 s ids ∧
    ids = img0 ++ [(20, 2), (21, 3)] ∧
    (CellList.entries s.store).map (·.map Prod.snd) = some [10, 11, 21] := by
  have key : ∃ s0 s1 s2 s3 s4 e1 e2, load (fresh false false (fun _ => false) 0) img0 = some s0 ∧
      step s0 (.submit ⟨20, 10, 0⟩) = some (s1, e1) ∧ e1 = .injected ⟨20, 10, 0⟩ false ∧
      step s1 (.notify ⟨21, 10, 0⟩) = some (s2, .notified ⟨21, 10, 0⟩) ∧ (s1.obj 21).inval = false ∧
      step s2 (.submit ⟨20, 11, 7⟩) = some (s3, e2) ∧ e2 = .queued ⟨20, 11, 7⟩ ∧
      step s3 (.invalidate 20) = some (s4, .silent) ∧ (s1.obj 20).oid = 2 ∧ (s2.obj 21).oid = 3 ∧
      (CellList.entries s4.store).map (·.map Prod.snd) = some [10, 11, 21] := by
    refine ⟨_, _, _, _, _, _, _, rfl, rfl, rfl, rfl, rfl, rfl, rfl, rfl, rfl, rfl, rfl⟩
  obtain ⟨s0, s1, s2, s3, s4, e1, e2, h0, h1, rfl, h2, h2', h3, rfl, h4, o1, o2, hs⟩ := key
  have d0 : Disciplined false false (fun _ => false) img0 s0 img0 :=
    .load (by decide) (by decide) h0
  have d1 := Disciplined.step d0 h1 (fun v q => by cases q) (fun a q r => by simp at r)
  have d2 := Disciplined.step d1 h2 (fun v q => by
    cases q
    refine ⟨?_, h2'⟩
    simp [given, boundBy, img0]) (fun a q r => by simp at r)
  have d3 := Disciplined.step d2 h3 (fun v q => by cases q) (fun a q r => by simp at r)
  have d4 := Disciplined.step d3 h4 (fun v q => by cases q) (fun a q r => by simp at r)
  refine ⟨s4, _, d4, ?_, hs⟩
  simp [given, boundBy, o1, o2]

end Verif.Store
