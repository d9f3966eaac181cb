import Verif.Source.Lemmas
/-!
# Reading ends
-/
namespace Verif.Source

theorem mem_takeWhile_append {p : Char → Bool} {a b : List Char} {x : Char} (h : x ∈ a.takeWhile p) :
    x ∈ (a ++ b).takeWhile p := by
  induction a with
  | nil => simp at h
  | cons c a ih =>
    rw [List.cons_append]
    by_cases hc : p c = true
    · rw [List.takeWhile_cons_of_pos hc] at h ⊢
      rcases List.mem_cons.1 h with rfl | h
      · simp
      · exact List.mem_cons_of_mem _ (ih h)
    · rw [List.takeWhile_cons_of_neg hc] at h
      simp at h

theorem dropWhile_nil {p : Char → Bool} {l : List Char} (h : l.dropWhile p = []) : ∀ c ∈ l, p c = true := by
  induction l with
  | nil => simp
  | cons c l ih =>
    by_cases hc : p c = true
    · rw [List.dropWhile_cons_of_pos hc] at h
      intro d hd
      rcases List.mem_cons.1 hd with rfl | hd
      · exact hc
      · exact ih h d hd
    · rw [List.dropWhile_cons_of_neg hc] at h
      cases h

theorem Closed.suffix {q cs : List Char} (h : Closed cs) (hs : q <:+ cs) : Closed q := by
  obtain ⟨p, rfl⟩ := hs
  refine ⟨fun hq => h.1 ?_, fun hq => h.2 ?_⟩
  · unfold lastLine
    rw [List.reverse_append]
    exact mem_takeWhile_append hq
  · rw [List.getLast?_append, hq]
    rfl

/-- At the end, or good with the end of the text left. -/
def Fwd (cs : List Char) (s : Stream) : Prop := s.eof = true ∨ (s.fail = false ∧ s.rest <:+ cs)

/-- What a round comes to, the stream being such after it. -/
def Act.All (P : Stream → Prop) : Act → Prop
  | .cont _ e => P e.s
  | .ret i _ e => i < 0 ∨ P e.s
  | .sub _ _ _ e => P e.s
  | .dir _ e => e.s.eof = false ∧ P e.s
  | .hang => False

theorem Act.All.mono {P Q : Stream → Prop} (h : ∀ s, P s → Q s) {x : Act} (hx : x.All P) : x.All Q := by
  cases x with
  | cont => exact h _ hx
  | ret => exact hx.imp id (h _)
  | sub => exact h _ hx
  | dir => exact ⟨hx.1, h _ hx.2⟩
  | hang => exact hx

/-- What a round comes to, the stream having moved on. -/
abbrev Act.Fwd (cs : List Char) (x : Act) : Prop := x.All (Source.Fwd cs)

theorem fwd_refl (cs : List Char) : Fwd cs ⟨cs, false, false⟩ := Or.inr ⟨rfl, List.suffix_refl _⟩

theorem fwd_peek {cs : List Char} {s : Stream} (h : Fwd cs s) : Fwd cs s.peek.2 := by
  rcases h with h | ⟨h1, h2⟩
  · refine Or.inl ?_
    unfold Stream.peek
    simp [h]
  · unfold Stream.peek
    by_cases he : s.eof = true
    · exact Or.inl (by simp [he])
    · cases hr : s.rest with
      | nil => exact Or.inl (by simp [h1, he])
      | cons c r => exact Or.inr (by simpa [h1, he] using hr ▸ h2)

theorem fwd_get {cs : List Char} {s : Stream} (h : Fwd cs s) : Fwd cs s.get.2 := by
  rcases h with h | ⟨h1, h2⟩
  · refine Or.inl ?_
    unfold Stream.get
    simp [h]
  · unfold Stream.get
    by_cases he : s.eof = true
    · exact Or.inl (by simp [he])
    · cases hr : s.rest with
      | nil => exact Or.inl (by simp [h1, he])
      | cons c r =>
        refine Or.inr ?_
        simp only [h1, he, Bool.or_self, Bool.false_eq_true, if_false]
        refine ⟨by simp, ?_⟩
        rw [hr] at h2
        simpa using (List.suffix_cons c r).trans h2

theorem fwd_flushed {cs : List Char} {e : Env} (h : Fwd cs e.s) (r : Loc × Bool) {k : Loc → Act}
    (hk : ∀ l, (k l).Fwd cs) : (Act.flushed e r k).Fwd cs := by
  unfold Act.flushed
  split
  · exact Or.inr h
  · exact hk _

theorem fwd_skipLow {cs : List Char} {s : Stream} (h : s.rest <:+ cs) :
    (skipLow s).eof = true ∨ ((skipLow s).eof = false ∧ (skipLow s).fail = false ∧ (skipLow s).rest <:+ cs ∧ (skipLow s).rest ≠ []) := by
  unfold skipLow
  have h' := (List.dropWhile_suffix (fun c : Char => decide (c.toNat < 32))).trans h
  split
  · exact Or.inl rfl
  · rename_i c hne
    exact Or.inr ⟨rfl, rfl, h', hne⟩

theorem fwd_indent {cs : List Char} (hc : Closed cs) {s : Stream} (h : s.rest <:+ cs) : Fwd cs (getIndent (skipLow s)).2 := by
  rcases fwd_skipLow h with h | ⟨h1, h2, h3, h4⟩
  · unfold getIndent
    rw [if_pos h]
    exact Or.inl h
  · unfold getIndent
    rw [if_neg (by simp [h1]), if_neg (by simp [h2])]
    have h5 := (List.dropWhile_suffix (· == ' ')).trans h3
    simp only
    split
    · rename_i he
      exfalso
      have hall := dropWhile_nil he
      have hl := (hc.suffix h3).2
      cases hg : (skipLow s).rest.getLast? with
      | none => exact h4 (List.getLast?_eq_none_iff.1 hg)
      | some c =>
        have := hall c (List.mem_of_getLast? hg)
        rw [hg] at hl
        exact hl (by simpa using this)
    · exact Or.inr ⟨rfl, h5⟩

theorem fwd_tail {cs : List Char} {s : Stream} (h : s.rest <:+ cs) : Fwd cs (readTail s).2 := by
  unfold readTail
  have h' := (List.dropWhile_suffix high).trans h
  simp only
  split
  · exact Or.inl rfl
  · rename_i c r he
    rw [he] at h'
    exact Or.inr ⟨rfl, (List.suffix_cons _ _).trans h'⟩

theorem fwd_newline {cs : List Char} (hc : Closed cs) (x : Nat) (lc : Char) (l : Loc) (a b : Nat) :
    (newline x lc l ⟨⟨cs, false, false⟩, a, b⟩).Fwd cs := by
  have hi := fwd_indent hc (s := ⟨cs, false, false⟩) (List.suffix_refl _)
  unfold newline
  split
  · exact fwd_refl cs
  · simp only
    split
    · split <;> exact hi
    · split
      · exact fwd_flushed hi _ fun l => Or.inr hi
      · exact fwd_flushed hi _ fun l => hi

theorem fwd_close (m : Bool) (x : Nat) (l : Loc) (cs : List Char) (a b : Nat) :
    (closeStruct m x l ⟨⟨cs, false, false⟩, a, b⟩).Fwd cs := by
  have hp := fwd_peek (fwd_refl cs)
  have h : Fwd cs (if (Stream.peek ⟨cs, false, false⟩).1 = some ':' then readTail (Stream.peek ⟨cs, false, false⟩).2
      else ([], (Stream.peek ⟨cs, false, false⟩).2)).2 := by
    split
    · rename_i h
      cases cs with
      | nil => simp [Stream.peek] at h
      | cons c r => exact fwd_tail (List.suffix_refl _)
    · exact hp
  unfold closeStruct
  exact fwd_flushed h _ fun l => Or.inr h

theorem fwd_openStruct (k : Kind) (x : Nat) (l : Loc) (cs : List Char) (a b : Nat) :
    (openStruct k x l ⟨⟨cs, false, false⟩, a, b⟩).Fwd cs := by
  unfold openStruct
  split
  · exact fwd_refl cs
  · exact fwd_flushed (fwd_refl cs) _ fun l => fwd_refl cs

theorem fwd_openSet' (x : Nat) (l : Loc) (e : Env) (cs : List Char) (h : Fwd cs e.s) : (openSet' x l e).Fwd cs := by
  have hp := fwd_peek h
  have hq := fwd_peek (fwd_get hp)
  unfold openSet'
  dsimp only
  generalize hE : e.s.peek = p at hp hq ⊢
  generalize hF : p.2.get.2.peek = q at hq ⊢
  by_cases h1 : p.1 = some ']'
  · rw [if_pos h1]
    by_cases h2 : (low q.1 || q.1 == some ';') = true
    · rw [if_pos h2]
      exact hq
    · rw [if_neg h2]
      split <;> exact hq
  · rw [if_neg h1]
    exact fwd_flushed hp _ fun l => hp

theorem fwd_openSet (x : Nat) (l : Loc) (cs : List Char) (a b : Nat) :
    (openSet x l ⟨⟨cs, false, false⟩, a, b⟩).Fwd cs := fwd_openSet' _ _ _ _ (fwd_refl cs)

theorem all_ite {P : Stream → Prop} {c : Prop} [Decidable c] {a b : Act} (ha : a.All P) (hb : b.All P) :
    (if c then a else b).All P := by
  by_cases h : c
  · rw [if_pos h]; exact ha
  · rw [if_neg h]; exact hb

theorem fwd_switch {cs : List Char} (hc : Closed cs) (x : Nat) (lc : Char) (l : Loc) (a b : Nat) :
    (switch x lc l ⟨⟨cs, false, false⟩, a, b⟩).Fwd cs := by
  have hr := fwd_refl cs
  unfold switch
  refine all_ite (all_ite hr (Or.inr hr)) ?_
  refine all_ite (all_ite hr (all_ite ⟨rfl, hr⟩ (Or.inr hr))) ?_
  refine all_ite (fwd_newline hc x lc l a b) ?_
  refine all_ite hr ?_
  refine all_ite hr ?_
  refine all_ite (fwd_flushed hr _ fun l => hr) ?_
  refine all_ite (fwd_openStruct _ _ _ _ _ _) ?_
  refine all_ite (fwd_close _ _ _ _ _ _) ?_
  refine all_ite (fwd_openStruct _ _ _ _ _ _) ?_
  refine all_ite (fwd_close _ _ _ _ _ _) ?_
  refine all_ite (all_ite (fwd_get (fwd_get (fwd_peek hr))) (fwd_peek hr)) ?_
  refine all_ite (fwd_openSet _ _ _ _ _) ?_
  exact all_ite (fwd_flushed hr _ fun l => Or.inr hr) hr

/-- A round from a good stream: the rest of the text is shorter after it. -/
theorem fwd_step {c : Char} {cs : List Char} (hc : Closed (c :: cs)) (x : Nat) (l : Loc) (a b : Nat) :
    (step x l ⟨⟨c :: cs, false, false⟩, a, b⟩).Fwd cs := by
  have hs : Closed cs := hc.suffix (List.suffix_cons _ _)
  unfold step
  simp only [Stream.get, Bool.or_self, Bool.false_eq_true, if_false]
  split
  · rename_i hq
    have hq : c = '"' := by simpa using (Bool.and_eq_true_iff.1 hq).2
    cases hr : readString cs with
    | none =>
      exfalso
      unfold readString at hr
      split at hr
      · rename_i he
        have hall := dropWhile_nil he
        refine hc.1 ?_
        unfold lastLine
        rw [List.reverse_cons, List.takeWhile_append_of_pos, hq]
        · simp
        · intro d hd
          have := hall d (List.mem_reverse.1 hd)
          simp only [Bool.and_eq_true] at this ⊢
          exact ⟨this.1.2, this.2⟩
      · split at hr <;> cases hr
    | some o =>
      cases o with
      | none => exact Or.inr (fwd_refl cs)
      | some p =>
        unfold readString at hr
        split at hr
        · cases hr
        · rename_i d r he
          split at hr
          · cases hr
            have := List.dropWhile_suffix (l := cs) fun c : Char => c != '"' && c != '\n' && c != '\r'
            rw [he] at this
            exact Or.inr ⟨rfl, (List.suffix_cons _ _).trans this⟩
          · cases hr
  · exact fwd_switch hs _ _ _ _ _

theorem fwd_end (x : Nat) (l : Loc) (a b : Nat) : (step x l ⟨⟨[], false, false⟩, a, b⟩).All fun s => s.eof = true := by
  have h : ∀ y lc (l : Loc) e, l.c = eofChar → e.s.eof = true → (switch y lc l e).All fun s => s.eof = true := by
    intro y lc l e h he
    unfold switch
    simp (decide := true) only [h, if_false, or_self]
    split <;> exact he
  unfold step
  simp only [Stream.get, Bool.or_self, Bool.false_eq_true, if_false]
  rw [if_neg (by simp (decide := true))]
  exact h _ _ _ _ rfl rfl

/-- How much is left: nothing at the end. -/
def Stream.left (s : Stream) : Nat := if s.eof then 0 else s.rest.length + 1

/-- Reading can start here. -/
def Ready (s : Stream) : Prop := s.eof = true ∨ (s.fail = false ∧ Closed s.rest)

theorem ready_of_fwd {cs : List Char} (hc : Closed cs) {s : Stream} (h : Fwd cs s) : Ready s := by
  rcases h with h | ⟨h1, h2⟩
  · exact Or.inl h
  · exact Or.inr ⟨h1, hc.suffix h2⟩

theorem left_of_fwd {cs : List Char} {s : Stream} (h : Fwd cs s) : s.left ≤ cs.length + 1 := by
  unfold Stream.left
  rcases h with h | ⟨h1, h2⟩
  · simp [h]
  · split
    · omega
    · have := h2.length_le
      omega

/-- A round from a stream that is ready. -/
theorem step_ready {s : Stream} (h : Ready s) (he : s.eof = false) (x : Nat) (l : Loc) (a b : Nat) :
    (step x l ⟨s, a, b⟩).All fun s' => Ready s' ∧ s'.left < s.left := by
  rcases h with h | ⟨h1, h2⟩
  · rw [h] at he; cases he
  · obtain ⟨r, e, f⟩ := s
    simp only at he h1 h2
    subst he h1
    cases r with
    | nil => exact (fwd_end x l a b).mono fun s' hs => ⟨Or.inl hs, by simp [Stream.left, hs]⟩
    | cons c cs =>
      refine (fwd_step h2 x l a b).mono fun s' hs => ⟨ready_of_fwd (h2.suffix (List.suffix_cons _ _)) hs, ?_⟩
      have := left_of_fwd hs
      have e1 : (Stream.left ⟨c :: cs, false, false⟩) = cs.length + 1 + 1 := by simp [Stream.left]
      omega

theorem ready_dir {s : Stream} (h : Ready s) (he : s.eof = false) {name : List Char} {s' : Stream}
    (hd : dirName s = some (name, s')) : Ready s' ∧ s'.left ≤ s.left ∧ Ready (skipLine s') ∧ (skipLine s').left ≤ s.left := by
  unfold dirName at hd
  split at hd
  · cases hd
  · rename_i cs hne
    rcases h with h | ⟨-, hc⟩
    · rw [h] at he; cases he
    cases hd
    have hsu := List.dropWhile_suffix (l := s.rest) high
    have hf : Fwd s.rest ⟨s.rest.dropWhile high, false, false⟩ := Or.inr ⟨rfl, hsu⟩
    have hl : s.left = s.rest.length + 1 := by simp [Stream.left, he]
    have hg : Fwd s.rest (skipLine ⟨s.rest.dropWhile high, false, false⟩) := by
      unfold skipLine
      have h2 := (List.dropWhile_suffix (l := s.rest.dropWhile high) fun c : Char => decide (13 < c.toNat)).trans hsu
      split
      · exact Or.inl rfl
      · rcases fwd_skipLow (s := ⟨(s.rest.dropWhile high).dropWhile fun c : Char => decide (13 < c.toNat), false, false⟩) h2
          with h | ⟨-, h3, h4, -⟩
        · exact Or.inl h
        · exact Or.inr ⟨h3, h4⟩
    exact ⟨ready_of_fwd hc hf, hl ▸ left_of_fwd hf, ready_of_fwd hc hg, hl ▸ left_of_fwd hg⟩

/-- Reading ends, and leaves a stream that is ready. -/
theorem parse_ends (f : Nat) : ∀ (x : Nat) (l : Loc) (e : Env), Ready e.s → e.s.left < f →
    ∃ r, parse f x l e = some r ∧ (r.1 < 0 ∨ (Ready r.2.2.s ∧ r.2.2.s.left ≤ e.s.left)) := by
  induction f with
  | zero => exact fun x l e _ h => absurd h (by omega)
  | succ f ih =>
    intro x l e hr hf
    rw [parse]
    by_cases he : e.s.eof = true
    · rw [if_pos he]
      exact ⟨_, rfl, Or.inr ⟨hr, Nat.le_refl _⟩⟩
    rw [if_neg he]
    have he : e.s.eof = false := by simpa using he
    have hs := step_ready hr he x l e.cur e.prev
    rw [show (⟨e.s, e.cur, e.prev⟩ : Env) = e from rfl] at hs
    cases ha : step x l e with
    | hang => rw [ha] at hs; exact hs.elim
    | cont l' e' =>
      rw [ha] at hs
      obtain ⟨h1, h2⟩ := hs
      obtain ⟨r, h3, h4⟩ := ih x l' e' h1 (by omega)
      exact ⟨r, h3, h4.imp id fun h => ⟨h.1, by omega⟩⟩
    | ret i l' e' =>
      rw [ha] at hs
      exact ⟨_, rfl, hs.imp id fun h => ⟨h.1, by have := h.2; simp only; omega⟩⟩
    | sub k lab l' e' =>
      rw [ha] at hs
      obtain ⟨h1, h2⟩ := hs
      obtain ⟨r, h3, h4⟩ := ih 0 (.new k lab []) e' h1 (by omega)
      simp only [h3, Option.bind_some]
      by_cases hn : r.1 < 0
      · rw [if_pos hn]
        exact ⟨_, rfl, Or.inl (by simp only; decide)⟩
      rw [if_neg hn]
      obtain ⟨h5, h6⟩ := h4.resolve_left hn
      split
      · exact ⟨_, rfl, Or.inr ⟨h5, by simp only; omega⟩⟩
      split
      · exact ⟨_, rfl, Or.inr ⟨h5, by simp only; omega⟩⟩
      obtain ⟨r', h7, h8⟩ := ih x (counted x { l' with args := l'.args ++ [r.2.1.tree] }).1 r.2.2 h5 (by omega)
      exact ⟨r', h7, h8.imp id fun h => ⟨h.1, by omega⟩⟩
    | dir l' e' =>
      rw [ha] at hs
      obtain ⟨he', h1, h2⟩ := hs
      simp only
      cases hd : dirName e'.s with
      | none => exact ⟨_, rfl, Or.inl (by simp only; decide)⟩
      | some p =>
        obtain ⟨name, s'⟩ := p
        simp only
        obtain ⟨d1, d2, d3, d4⟩ := ready_dir h1 he' hd
        cases hp : dirParams name with
        | none => exact ⟨_, rfl, Or.inl (by simp only; decide)⟩
        | some q =>
          obtain ⟨k, n⟩ := q
          cases n with
          | zero =>
            obtain ⟨r, h3, h4⟩ := ih x { l' with args := l'.args ++ [.mk k [] name [] []] } { e' with s := skipLine s' } d3
              (by simp only; omega)
            exact ⟨r, h3, h4.imp id fun h => ⟨h.1, by have := h.2; simp only at this; omega⟩⟩
          | succ n =>
            obtain ⟨r, h3, h4⟩ := ih (n + 1) (.new k [] name) { e' with s := s' } d1 (by simp only; omega)
            simp only [h3, Option.bind_some]
            by_cases hn : r.1 ≠ 0
            · rw [if_pos hn]
              exact ⟨_, rfl, Or.inl (by simp only; decide)⟩
            rw [if_neg hn]
            obtain ⟨h5, h6⟩ := h4.resolve_left (by omega)
            simp only at h6
            obtain ⟨r', h7, h8⟩ := ih x { l' with args := l'.args ++ [r.2.1.tree] } r.2.2 h5 (by omega)
            exact ⟨r', h7, h8.imp id fun h => ⟨h.1, by omega⟩⟩

end Verif.Source
