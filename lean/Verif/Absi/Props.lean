import Verif.Absi.Spec
/-!
# C178
-/
namespace Verif.Absi

theorem count_length : ∀ n i, (count i n).length = n
  | 0, _ => rfl
  | n + 1, i => by rw [count, List.length_cons, count_length n]

theorem count_mem : ∀ {n i : Nat} {x : Arg}, x ∈ count i n → ∃ k, x = .w (.vl k) ∧ i ≤ k ∧ k < i + n
  | 0, _, _, h => by cases h
  | n + 1, i, x, h => by
    rw [count, List.mem_cons] at h
    rcases h with rfl | h
    · exact ⟨i, rfl, by omega, by omega⟩
    · obtain ⟨k, e, h1, h2⟩ := count_mem h
      exact ⟨k, e, by omega, by omega⟩

theorem count_nodup : ∀ n i, (count i n).Nodup
  | 0, _ => List.nodup_nil
  | n + 1, i => by
    rw [count, List.nodup_cons]
    refine ⟨fun h => ?_, count_nodup n _⟩
    obtain ⟨k, e, h1, -⟩ := count_mem h
    cases e
    omega

theorem count_append : ∀ n m i, count i n ++ count (i + n) m = count i (n + m)
  | 0, m, i => by simp [count]
  | n + 1, m, i => by
    rw [show n + 1 + m = (n + m) + 1 by omega, count, count, List.cons_append, show i + (n + 1) = i + 1 + n by omega, count_append n]

theorem count_get : ∀ n i j, (count i n)[j]? = if j < n then some (.w (.vl (i + j))) else none
  | 0, _, _ => by simp [count]
  | n + 1, i, 0 => by simp [count]
  | n + 1, i, j + 1 => by
    rw [count, List.getElem?_cons_succ, count_get n]
    by_cases h : j < n
    · rw [if_pos h, if_pos (by omega), show i + 1 + j = i + (j + 1) by omega]
    · rw [if_neg h, if_neg (by omega)]

theorem expo_get {a b : Nat} (hab : a ≠ b) : ∀ n i j, (expo a b i n)[j]? =
    (let u := if i ≤ min a b ∧ min a b ≤ i + j then i + j + 1 else i + j
     let v := if i ≤ max a b ∧ max a b ≤ u then u + 1 else u
     if v < i + n then some v else none)
  | 0, i, j => by
    simp only [expo, List.getElem?_nil]
    rw [if_neg]
    split <;> split <;> omega
  | n + 1, i, j => by
    rw [expo]
    by_cases h1 : i = a
    · rw [if_pos h1, expo_get hab n]
      dsimp only
      split <;> split <;> split <;> split <;> split <;> split <;> first | rfl | omega | (congr 1; omega)
    · rw [if_neg h1]
      by_cases h2 : i = b
      · rw [if_pos h2, expo_get hab n]
        dsimp only
        split <;> split <;> split <;> split <;> split <;> split <;> first | rfl | omega | (congr 1; omega)
      · rw [if_neg h2]
        cases j with
        | zero =>
          rw [List.getElem?_cons_zero]
          dsimp only
          split <;> split <;> split <;> first | rfl | omega | (congr 1; omega)
        | succ j =>
          rw [List.getElem?_cons_succ, expo_get hab n]
          dsimp only
          split <;> split <;> split <;> split <;> split <;> split <;> first | rfl | omega | (congr 1; omega)

theorem add_le (n i : Nat) : n ≤ add n i ∧ i < add n i ∧ (add n i = n ∨ add n i = i + 1) := by
  unfold add
  split <;> omega

theorem fold_add : ∀ (is : List Nat) (n : Nat), n ≤ is.foldl add n ∧ (∀ i ∈ is, i < is.foldl add n) ∧
    (is.foldl add n = n ∨ ∃ i ∈ is, is.foldl add n = i + 1)
  | [], n => ⟨Nat.le_refl _, (fun _ h => by cases h), .inl rfl⟩
  | x :: xs, n => by
    obtain ⟨h1, h2, h3⟩ := fold_add xs (add n x)
    obtain ⟨k1, k2, k3⟩ := add_le n x
    rw [List.foldl_cons]
    refine ⟨by omega, fun i hi => ?_, ?_⟩
    · rcases List.mem_cons.mp hi with rfl | hi
      · omega
      · exact h2 i hi
    · rcases h3 with h3 | ⟨i, hi, h3⟩
      · rcases k3 with k3 | k3
        · exact .inl (by omega)
        · exact .inr ⟨x, List.mem_cons_self, by omega⟩
      · exact .inr ⟨i, List.mem_cons_of_mem _ hi, h3⟩

theorem first_range : ∀ n i, addTpl i ((List.range' i n).map TArg.var) = i + n
  | 0, _ => rfl
  | n + 1, i => by
    rw [List.range'_succ, List.map_cons, addTpl, add, if_pos (Nat.le_refl _), first_range n]
    omega

theorem first_eq {h : Hlp} (o : h.tpl = (List.range h.tpl.length).map TArg.var) : first h = h.tpl.length := by
  rw [first, o, List.range_eq_range', first_range, List.length_map, List.length_range']
  omega

/-- Parts that are kept, for all composite states; and of those whose template arguments are the first variables, which arguments stand
for what. -/
theorem C178_abstraction_partial (op : Op) (h : Hlp) (B : Nat → Val) (wr : Bool) :
    let f := build op h B wr
    let a := abstracted f
    (∀ i : Inst, (abstracted i).anti = i.anti ∧ (abstracted i).after = i.after ∧ (abstracted i).before = i.before ∧
      (abstracted i).op = i.op ∧ (abstracted i).ref = i.ref ∧ (abstracted i).wr = i.wr ∧ (abstracted i).thr = i.thr) ∧
    (f.anti = false ∧ f.after = B h.after ∧ f.before = B h.before ∧ f.op = op ∧ f.ref = h.id ∧ f.wr = wr) ∧
    (a.anti = f.anti ∧ a.after = f.after ∧ a.before = f.before ∧ a.op = f.op ∧ a.ref = f.ref ∧ a.wr = f.wr ∧ a.thr = f.thr ∧
      a.tpl.length = f.tpl.length ∧ a.exposed.length = f.exposed.length ∧ (names a).Nodup) ∧
    (Ordered h → a.tpl.map (Arg.value B) = f.tpl.map (Arg.value B) ∧
      (∀ n, Total h n → a.exposed.length = n - h.tpl.length - 2 ∧
        (Fits B a f ↔ ∀ j < n - h.tpl.length - 2, B (h.tpl.length + j) = B (place h.after h.before (h.tpl.length + j)))) ∧
      (∀ j x, h.tpl.length + j < h.after → h.tpl.length + j < h.before → f.exposed[j]? = some x →
        ∃ y, a.exposed[j]? = some y ∧ y.value B = x.value B) ∧
      (TimesLast h → Adjacent h → Fits B a f)) := by
  intro f a
  have base : a.anti = f.anti ∧ a.after = f.after ∧ a.before = f.before ∧ a.op = f.op ∧ a.ref = f.ref ∧ a.wr = f.wr ∧ a.thr = f.thr ∧
      a.tpl.length = f.tpl.length ∧ a.exposed.length = f.exposed.length ∧ (names a).Nodup := by
    refine ⟨rfl, rfl, rfl, ?_, rfl, rfl, rfl, count_length _ _, count_length _ _, ?_⟩
    · show (if f.op = .icst then Op.icst else .imdl) = f.op
      cases f.op <;> rfl
    · have := count_append f.tpl.length f.exposed.length 0
      rw [Nat.zero_add] at this
      show (count 0 f.tpl.length ++ count f.tpl.length f.exposed.length).Nodup
      rw [this]
      exact count_nodup _ _
  have hd : ∀ i : Inst, (abstracted i).anti = i.anti ∧ (abstracted i).after = i.after ∧ (abstracted i).before = i.before ∧
      (abstracted i).op = i.op ∧ (abstracted i).ref = i.ref ∧ (abstracted i).wr = i.wr ∧ (abstracted i).thr = i.thr := by
    intro i
    refine ⟨rfl, rfl, rfl, ?_, rfl, rfl, rfl⟩
    show (if i.op = .icst then Op.icst else .imdl) = i.op
    cases i.op <;> rfl
  refine ⟨hd, ⟨rfl, rfl, rfl, rfl, rfl, rfl⟩, base, fun o => ?_⟩
  obtain ⟨o, oa, ob, oab, va, vb⟩ := o
  have hfl : f.tpl.length = h.tpl.length := List.length_map _
  have ht : a.tpl.map (Arg.value B) = f.tpl.map (Arg.value B) := by
    apply List.ext_getElem?
    intro j
    show ((count 0 f.tpl.length).map (Arg.value B))[j]? = ((h.tpl.map (tplArg B)).map (Arg.value B))[j]?
    rw [List.getElem?_map, count_get, hfl, List.map_map, List.getElem?_map, o]
    simp only [List.getElem?_map, List.length_map, List.length_range]
    by_cases hj : j < h.tpl.length
    · rw [if_pos hj, List.getElem?_range hj, Nat.zero_add]
      rfl
    · rw [if_neg hj, List.getElem?_eq_none (by simpa using hj)]
      rfl
  have hfirst := first_eq o
  obtain ⟨s1, s2, s3⟩ := fold_add h.vars (first h)
  have sa := s2 _ va
  have sb := s2 _ vb
  -- the arguments of the instance
  have hx : ∀ j, f.exposed[j]? = if j < size h - h.tpl.length - 2 then
      some (.w (.val (B (place h.after h.before (h.tpl.length + j))))) else none := by
    intro j
    show (((expo h.after h.before (first h) (size h - first h)).take (size h - first h - 2)).map fun i => Arg.w (.val (B i)))[j]? = _
    rw [hfirst, List.getElem?_map, List.getElem?_take, expo_get oab]
    by_cases hj : j < size h - h.tpl.length - 2
    · have hs : size h = h.vars.foldl add (first h) := rfl
      rw [if_pos hj, if_pos hj]
      have e : (let u := if h.tpl.length ≤ min h.after h.before ∧ min h.after h.before ≤ h.tpl.length + j then h.tpl.length + j + 1 else h.tpl.length + j
          let v := if h.tpl.length ≤ max h.after h.before ∧ max h.after h.before ≤ u then u + 1 else u
          if v < h.tpl.length + (size h - h.tpl.length) then some v else none) = some (place h.after h.before (h.tpl.length + j)) := by
        dsimp only [place]
        split <;> split <;> split <;> split <;> first | rfl | omega | (split <;> first | rfl | omega | (congr 1; omega))
      rw [e]
      rfl
    · rw [if_neg hj, if_neg hj]
      rfl
  have hfe : f.exposed.length = size h - h.tpl.length - 2 := by
    apply Nat.le_antisymm
    · apply Nat.le_of_not_lt
      intro k
      have := hx (size h - h.tpl.length - 2)
      rw [if_neg (by omega), List.getElem?_eq_none_iff] at this
      omega
    · apply Nat.le_of_not_lt
      intro k
      have := hx f.exposed.length
      rw [if_pos k, List.getElem?_eq_none (Nat.le_refl _)] at this
      cases this
  have ha : ∀ j, a.exposed[j]? = if j < size h - h.tpl.length - 2 then some (.w (.vl (h.tpl.length + j))) else none := by
    intro j
    show (count f.tpl.length f.exposed.length)[j]? = _
    rw [count_get, hfe, hfl]
  have hn : ∀ n, Total h n → n = size h := by
    intro n ⟨t1, t2, t3⟩
    have k1 := s2 _ t3
    show n = h.vars.foldl add (first h)
    have hp : 0 < n := Nat.lt_of_le_of_lt (Nat.zero_le _) (t1 _ t3)
    rcases s3 with s3 | ⟨i, hi, s3⟩
    · have : h.tpl.length ≤ h.after := oa
      omega
    · have := t1 i hi
      omega
  have iff : Fits B a f ↔ ∀ j < size h - h.tpl.length - 2, B (h.tpl.length + j) = B (place h.after h.before (h.tpl.length + j)) := by
    constructor
    · intro hf j hj
      have e := congrArg (·[j]?) hf.2.2.2.2.2.2.2.2
      simp only [List.getElem?_map, ha, hx, if_pos hj, Option.map_some, Option.some.injEq] at e
      exact Sum.inl.inj e
    · intro hf
      refine ⟨base.1, base.2.1, base.2.2.1, base.2.2.2.1, base.2.2.2.2.1, base.2.2.2.2.2.1, base.2.2.2.2.2.2.1, ht, ?_⟩
      apply List.ext_getElem?
      intro j
      rw [List.getElem?_map, List.getElem?_map, ha, hx]
      by_cases hj : j < size h - h.tpl.length - 2
      · rw [if_pos hj, if_pos hj]
        exact congrArg (fun v => some (Sum.inl v)) (hf j hj)
      · rw [if_neg hj, if_neg hj, Option.map_none]
  refine ⟨ht, fun n t => ?_, fun j x h1 h2 hxj => ?_, fun tl ad => ?_⟩
  · rw [hn n t]
    exact ⟨by rw [base.2.2.2.2.2.2.2.2.1, hfe], iff⟩
  · rw [hx] at hxj
    by_cases hj : j < size h - h.tpl.length - 2
    · rw [if_pos hj] at hxj
      cases hxj
      refine ⟨_, by rw [ha, if_pos hj], ?_⟩
      show Sum.inl (B (h.tpl.length + j)) = Sum.inl (B (place h.after h.before (h.tpl.length + j)))
      rw [place, if_pos (by omega)]
    · rw [if_neg hj] at hxj
      cases hxj
  · rw [iff]
    intro j hj
    have hs : size h = h.vars.foldl add (first h) := rfl
    have : size h ≤ h.after + 1 ∨ size h ≤ h.before + 1 := by
      rcases s3 with s3 | ⟨i, hi, s3⟩
      · omega
      · rcases tl i hi with k | k
        · exact .inl (by omega)
        · exact .inr (by omega)
    unfold Adjacent at ad
    rw [place, if_pos (by omega)]

/-- `(fact (mk.val x: p v:) t0: t1:)` and `(fact (mk.val x: q w:) t2: t3:)`, with `x` the template argument. -/
def h₁ : Hlp := { id := 9, tpl := [.var 0], after := 2, before := 3, vars := [0, 0, 1, 2, 3, 0, 4, 5, 6] }

/-- The same with a time interval as template argument. -/
def h₂ : Hlp := { id := 9, tpl := [.var 0, .st true [1, 2]], after := 4, before := 5, vars := [0, 1, 2, 0, 3, 4, 5] }

/-- A state of one fact. -/
def h₃ : Hlp := { id := 9, tpl := [.var 0], after := 2, before := 3, vars := [0, 0, 1, 2, 3] }

def B₁ : Nat → Val := fun i => 100 + i

/-- What `C178_full` asks for and is not so: the times of the first fact are in the map but not among the arguments, so that the variables of
all arguments after them are two too small (the value of the second fact stands for the beginning of the first); and a time interval
among the template arguments is one place but two variables. -/
theorem C178_abstraction_violated : ¬ C178_full ∧
    (let f := build .icst h₁ B₁ false
     f.exposed.map (Arg.value B₁) = [.inl 101, .inl 104, .inl 105, .inl 106] ∧
     (abstracted f).exposed.map (Arg.value B₁) = [.inl 101, .inl 102, .inl 103, .inl 104]) ∧
    (let f := build .icst h₂ B₁ false
     f.tpl.map (Arg.value B₁) = [.inl 100, .inr (true, [101, 102])] ∧ (abstracted f).tpl.map (Arg.value B₁) = [.inl 100, .inl 101] ∧
     f.exposed.map (Arg.value B₁) = [.inl 103] ∧ (abstracted f).exposed.map (Arg.value B₁) = [.inl 102]) := by
  refine ⟨fun h => ?_, by decide, by decide⟩
  have e := (h .icst h₁ B₁ false (by decide) (by decide) (by decide)).1.2.2.2.2.2.2.2.2
  exact absurd e (by decide)

theorem C178_nonvacuous : (Ordered h₁ ∧ Total h₁ 7 ∧ ¬ TimesLast h₁) ∧
    (Ordered h₃ ∧ TimesLast h₃ ∧ Adjacent h₃ ∧ (build .icst h₃ B₁ false).exposed = [.w (.val 101)]) := by
  refine ⟨⟨?_, ⟨by decide, ?_, by decide⟩, by unfold TimesLast; decide⟩, ?_, by unfold TimesLast; decide, .inl rfl, by decide⟩
  · exact ⟨by decide, by decide, by decide, by decide, by decide, by decide⟩
  · intro i hi
    simp [h₁] at hi
    omega
  · exact ⟨by decide, by decide, by decide, by decide, by decide, by decide⟩

end Verif.Absi
