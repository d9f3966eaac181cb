import Verif.Source.Spec
/-!
# Reading, step by step
-/
namespace Verif.Source

/-- More rounds do no harm. -/
theorem parse_succ (f x : Nat) (l : Loc) (e : Env) (r : Int × Loc × Env) (h : parse f x l e = some r) :
    parse (f + 1) x l e = some r := by
  induction f generalizing x l e r with
  | zero => cases h
  | succ f ih =>
    rw [parse] at h ⊢
    by_cases he : e.s.eof = true
    · rw [if_pos he] at h ⊢
      exact h
    · rw [if_neg he] at h ⊢
      cases hs : step x l e with
      | cont l e => rw [hs] at h; exact ih x l e r h
      | ret i l e => rw [hs] at h; exact h
      | hang => rw [hs] at h; exact h
      | sub k lab l e =>
        rw [hs] at h
        simp only at h ⊢
        obtain ⟨a, ha, h⟩ := Option.bind_eq_some_iff.1 h
        rw [ih _ _ _ _ ha, Option.bind_some]
        by_cases h1 : a.1 < 0
        · rw [if_pos h1] at h ⊢; exact h
        rw [if_neg h1] at h ⊢
        by_cases h2 : (counted x { l with args := l.args ++ [a.2.1.tree] }).2 = true
        · rw [if_pos h2] at h ⊢; exact h
        rw [if_neg h2] at h ⊢
        by_cases h3 : a.1 > 0
        · rw [if_pos h3] at h ⊢; exact h
        rw [if_neg h3] at h ⊢
        exact ih _ _ _ _ h
      | dir l e =>
        rw [hs] at h
        simp only at h ⊢
        cases hd : dirName e.s with
        | none => rw [hd] at h; exact h
        | some p =>
          rw [hd] at h
          simp only at h ⊢
          cases hp : dirParams p.1 with
          | none => rw [hp] at h; exact h
          | some q =>
            rw [hp] at h
            obtain ⟨k, n⟩ := q
            cases n with
            | zero => exact ih _ _ _ _ h
            | succ n =>
              simp only at h ⊢
              obtain ⟨a, ha, h⟩ := Option.bind_eq_some_iff.1 h
              rw [ih _ _ _ _ ha, Option.bind_some]
              by_cases h1 : a.1 ≠ 0
              · rw [if_pos h1] at h ⊢; exact h
              rw [if_neg h1] at h ⊢
              exact ih _ _ _ _ h

theorem parse_mono {f g x : Nat} {l : Loc} {e : Env} {r : Int × Loc × Env} (h : parse f x l e = some r) (hg : f ≤ g) :
    parse g x l e = some r := by
  induction hg with
  | refl => exact h
  | step _ ih => exact parse_succ _ _ _ _ _ ih

/-- Reading from the first state ends as reading from the second does. -/
def Reads (l : Loc) (e : Env) (l' : Loc) (e' : Env) : Prop :=
  ∃ n, ∀ g r, parse g 0 l' e' = some r → parse (n + g) 0 l e = some r

theorem Reads.refl (l : Loc) (e : Env) : Reads l e l e := ⟨0, fun g r h => by simpa using h⟩

theorem Reads.trans {l1 l2 l3 : Loc} {e1 e2 e3 : Env} (h : Reads l1 e1 l2 e2) (h' : Reads l2 e2 l3 e3) :
    Reads l1 e1 l3 e3 := by
  obtain ⟨n, h⟩ := h
  obtain ⟨m, h'⟩ := h'
  exact ⟨n + m, fun g r hr => by rw [Nat.add_assoc]; exact h _ _ (h' _ _ hr)⟩

theorem Reads.cont {l l' : Loc} {e e' : Env} (he : e.s.eof = false) (h : step 0 l e = .cont l' e') : Reads l e l' e' :=
  ⟨1, fun g r hr => by
    rw [Nat.add_comm, parse, if_neg (by simp [he]), h]
    exact hr⟩

/-- A structure read and returned with 0 is a member. -/
theorem Reads.sub {l l' m : Loc} {e e' e'' : Env} {k : Kind} {lab : List Char} (he : e.s.eof = false)
    (h : step 0 l e = .sub k lab l' e') (hs : ∃ n, parse n 0 (.new k lab []) e' = some (0, m, e'')) :
    Reads l e { l' with args := l'.args ++ [m.tree] } e'' := by
  obtain ⟨n, hs⟩ := hs
  refine ⟨n + 1, fun g r hr => ?_⟩
  have hn : n + 1 + g = (n + g) + 1 := by omega
  rw [hn, parse, if_neg (by simp [he]), h]
  simp only
  rw [parse_mono hs (Nat.le_add_right n g), Option.bind_some]
  simp only [counted, Nat.lt_irrefl, gt_iff_lt, if_false, Bool.false_eq_true, Int.lt_irrefl]
  exact parse_mono hr (Nat.le_add_left g n)

/-- A good stream with this left to read. -/
def good (r : List Char) (cur prev : Nat) : Env := ⟨⟨r, false, false⟩, cur, prev⟩

theorem step_plain {c : Char} (h : Plain c) (l : Loc) (hc : l.comment = false) (r : List Char) (a b : Nat) :
    step 0 l (good (c :: r) a b) = .cont { l with c := c, lastc := l.c, str := l.str ++ [c] } (good r a b) := by
  obtain ⟨h1, h2, h3, h4, h5, h6, h7, h8, h9, h10, h11, h12⟩ := h
  have n1 : c ≠ '\t' := fun e => by subst e; revert h1; decide
  have n2 : c ≠ '\n' := fun e => by subst e; revert h1; decide
  have n3 : c ≠ '\r' := fun e => by subst e; revert h1; decide
  have n4 : c ≠ ' ' := fun e => by subst e; revert h1; decide
  unfold step
  simp only [good, Stream.get, Bool.or_self, Bool.false_eq_true, if_false, hc, Bool.not_false, Bool.true_and, beq_iff_eq,
    if_neg h4]
  unfold switch
  simp only [if_neg n1, if_neg h3, if_neg h5, if_neg n4, if_neg h6, if_neg h7, if_neg h8, if_neg h9, if_neg h10,
    if_neg h11, if_neg h12, n2, n3, or_self, if_false, hc, Bool.false_eq_true]

theorem step_bar (l : Loc) (hc : l.comment = false) (r : List Char) (a b : Nat) :
    step 0 l (good ('|' :: '[' :: ']' :: r) a b) =
      .cont { l with c := '|', lastc := l.c, str := l.str ++ ['|', '[', ']'] } (good r a b) := by
  unfold step
  simp only [good, Stream.get, Bool.or_self, Bool.false_eq_true, if_false, hc, Bool.not_false, Bool.true_and]
  rw [if_neg (by decide)]
  unfold switch
  simp only [hc]
  simp [Stream.peek, Stream.get]

theorem takeWhile_append_stop {p : Char → Bool} (q : List Char) (d : Char) (r : List Char) (hq : ∀ c ∈ q, p c = true)
    (hd : p d = false) : (q ++ d :: r).takeWhile p = q ∧ (q ++ d :: r).dropWhile p = d :: r := by
  induction q with
  | nil => simp [hd]
  | cons c q ih =>
    obtain ⟨h1, h2⟩ := ih fun x hx => hq x (by simp [hx])
    have hc := hq c (by simp)
    simp [hc, h1, h2]

theorem step_string (q : List Char) (hq : ∀ c ∈ q, c ≠ '"' ∧ c ≠ '\n' ∧ c ≠ '\r') (l : Loc) (hc : l.comment = false)
    (r : List Char) (a b : Nat) :
    step 0 l (good ('"' :: q ++ '"' :: r) a b) =
      .cont { l with c := '"', lastc := (q.getLast?).getD '"', str := l.str ++ '"' :: q ++ ['"'] } (good r a b) := by
  have h := takeWhile_append_stop (p := fun c => c != '"' && c != '\n' && c != '\r') q '"' r
    (fun c hc => by obtain ⟨h1, h2, h3⟩ := hq c hc; simp [h1, h2, h3]) (by decide)
  unfold step
  simp only [good, Stream.get, Bool.or_self, Bool.false_eq_true, if_false, hc, Bool.not_false, Bool.true_and,
    List.cons_append, beq_self_eq_true, if_true]
  simp only [readString, h.1, h.2, if_true]

theorem reads_word {w : List Char} (h : Word w) : ∀ (l : Loc) (r : List Char) (a b : Nat), l.comment = false →
    ∃ c lc, Reads l (good (w ++ r) a b) { l with c := c, lastc := lc, str := l.str ++ w } (good r a b) := by
  induction h with
  | nil => exact fun l r a b _ => ⟨l.c, l.lastc, by simpa using Reads.refl l _⟩
  | plain c w hc _ ih =>
    intro l r a b hl
    have h1 := Reads.cont (l := l) (e := good (c :: (w ++ r)) a b) rfl (step_plain hc l hl (w ++ r) a b)
    obtain ⟨c', lc', h2⟩ := ih { l with c := c, lastc := l.c, str := l.str ++ [c] } r a b hl
    refine ⟨c', lc', ?_⟩
    have := h1.trans h2
    simpa using this
  | quoted q w hq _ ih =>
    intro l r a b hl
    have h1 := Reads.cont (l := l) (e := good ('"' :: q ++ '"' :: (w ++ r)) a b) rfl (step_string q hq l hl (w ++ r) a b)
    obtain ⟨c', lc', h2⟩ := ih { l with c := '"', lastc := (q.getLast?).getD '"', str := l.str ++ '"' :: q ++ ['"'] } r a b hl
    refine ⟨c', lc', ?_⟩
    have := h1.trans h2
    simpa using this
  | bar w _ ih =>
    intro l r a b hl
    have h1 := Reads.cont (l := l) (e := good ('|' :: '[' :: ']' :: (w ++ r)) a b) rfl (step_bar l hl (w ++ r) a b)
    obtain ⟨c', lc', h2⟩ := ih { l with c := '|', lastc := l.c, str := l.str ++ ['|', '[', ']'] } r a b hl
    refine ⟨c', lc', ?_⟩
    have := h1.trans h2
    simpa using this

/-! ## Structures -/

/-- The text goes on with one of these. -/
def Delim (r : List Char) : Prop := ∃ d r', r = d :: r' ∧ (d = ' ' ∨ d = ')' ∨ d = '}' ∨ d = ']')

/-- What is read is among the members, or is the text read last. -/
def Pend (l : Loc) (A : List Tree) : Prop :=
  (l.str = [] ∧ l.args = A) ∨ (l.str ≠ [] ∧ A = l.args ++ [.mk .atom [] l.str [] []])

/-- Reading `t`, which is followed by a delimiter. -/
def ItemReads (t : Tree) : Prop :=
  ∀ (l : Loc) (r : List Char) (a b : Nat), l.comment = false → l.str = [] → l.lbl = [] → high l.c = false → Delim r ∨
    ((∃ r', r = '\n' :: r') ∧ (t.kind = .set → t.args ≠ [])) →
    ∃ c lc s A, Reads l (good (t.print ++ r) a b) { l with c := c, lastc := lc, str := s, args := A } (good r a b) ∧
      Pend { l with c := c, lastc := lc, str := s, args := A } (l.args ++ [t])

theorem flush_member {l : Loc} {A : List Tree} (h : Pend l A) : flush 0 true l = ({ l with args := A, str := [] }, false) := by
  unfold flush counted
  rcases h with ⟨h1, h2⟩ | ⟨h1, h2⟩
  · subst h2
    cases l
    simp only at h1
    subst h1
    rfl
  · have : l.str.isEmpty = false := by simpa using h1
    rw [this, h2]
    rfl

/-- Texts become members here. -/
def Members (l : Loc) : Prop := (!l.cmd.isEmpty || l.kind == .set || l.kind == .development) = true

theorem step_space (l : Loc) (hc : l.comment = false) (r : List Char) (a b : Nat) :
    step 0 l (good (' ' :: r) a b) =
      .flushed (good r a b) (flush 0 (!l.cmd.isEmpty || l.kind == .set || l.kind == .development)
        { l with c := ' ', lastc := l.c }) fun l => .cont l (good r a b) := by
  unfold step
  simp only [good, Stream.get, Bool.or_self, Bool.false_eq_true, if_false, hc, Bool.not_false, Bool.true_and]
  rw [if_neg (by decide)]
  unfold switch
  simp [hc]

theorem reads_each (ts : List Tree) (h : ∀ t ∈ ts, ItemReads t) : ∀ (l : Loc) (A : List Tree) (r : List Char) (a b : Nat),
    l.comment = false → l.lbl = [] → Members l → Pend l A → Delim r →
    ∃ c lc s A', Reads l (good (printEach ts ++ r) a b) { l with c := c, lastc := lc, str := s, args := A' } (good r a b) ∧
      Pend { l with c := c, lastc := lc, str := s, args := A' } (A ++ ts) := by
  induction ts with
  | nil =>
    intro l A r a b _ _ _ hp _
    exact ⟨l.c, l.lastc, l.str, l.args, by simpa [printEach] using Reads.refl l _, by simpa using hp⟩
  | cons t ts ih =>
    intro l A r a b hc hl hm hp hr
    have hp' : Pend { l with c := ' ', lastc := l.c } A := hp
    have h1 : step 0 l (good (' ' :: (t.print ++ (printEach ts ++ r))) a b) =
        .cont { l with c := ' ', lastc := l.c, args := A, str := [] } (good (t.print ++ (printEach ts ++ r)) a b) := by
      rw [step_space l hc]
      unfold Members at hm
      rw [hm, flush_member hp']
      rfl
    have h2 := Reads.cont (e := good (' ' :: (t.print ++ (printEach ts ++ r))) a b) rfl h1
    have hd : Delim (printEach ts ++ r) := by
      cases ts with
      | nil => simpa [printEach] using hr
      | cons t' ts' => exact ⟨' ', t'.print ++ printEach ts' ++ r, by simp [printEach], Or.inl rfl⟩
    obtain ⟨c, lc, s, A', h3, h4⟩ := h t (by simp) { l with c := ' ', lastc := l.c, args := A, str := [] }
      (printEach ts ++ r) a b hc rfl hl rfl (Or.inl hd)
    obtain ⟨c', lc', s', A'', h5, h6⟩ := ih (fun x hx => h x (by simp [hx]))
      { l with c := c, lastc := lc, str := s, args := A' } (A ++ [t]) r a b hc hl hm h4 hr
    refine ⟨c', lc', s', A'', ?_, ?_⟩
    · have := (h2.trans h3).trans h5
      simpa [printEach] using this
    · simpa using h6

/-- The closing bracket. -/
def closer : Kind → Char
  | .struct => ')'
  | .development => '}'
  | _ => ']'

theorem step_char (x : Nat) (c : Char) (hq : c ≠ '"') (l : Loc) (hc : l.comment = false) (r : List Char) (a b : Nat) :
    step x l (good (c :: r) a b) = switch x l.lastc { l with c := c, lastc := l.c } (good r a b) := by
  unfold step
  simp only [good, Stream.get, Bool.or_self, Bool.false_eq_true, if_false, hc, Bool.not_false, Bool.true_and]
  rw [if_neg (by simpa using hq)]

theorem switch_paren (x : Nat) (lc : Char) (l : Loc) (e : Env) (hc : l.comment = false) (h : l.c = ')') :
    switch x lc l e = closeStruct false x l e := by
  unfold switch
  simp (decide := true) only [h, hc, if_false, Bool.false_eq_true, if_true]

theorem switch_brace (x : Nat) (lc : Char) (l : Loc) (e : Env) (hc : l.comment = false) (h : l.c = '}') :
    switch x lc l e = closeStruct (l.kind == .development) x l e := by
  unfold switch
  simp (decide := true) only [h, hc, if_false, Bool.false_eq_true, if_true]

theorem switch_bracket (x : Nat) (lc : Char) (l : Loc) (e : Env) (hc : l.comment = false) (h : l.c = ']') :
    switch x lc l e = .flushed e (flush x (!l.cmd.isEmpty || l.kind == .set) l) fun l => .ret 0 l e := by
  unfold switch
  simp (decide := true) only [h, hc, if_false, Bool.false_eq_true, if_true]

theorem switch_open (x : Nat) (lc : Char) (l : Loc) (e : Env) (hc : l.comment = false) (h : l.c = '(') :
    switch x lc l e = openStruct .struct x l e := by
  unfold switch
  simp (decide := true) only [h, hc, if_false, Bool.false_eq_true, if_true]

theorem switch_obrace (x : Nat) (lc : Char) (l : Loc) (e : Env) (hc : l.comment = false) (h : l.c = '{') :
    switch x lc l e = openStruct .development x l e := by
  unfold switch
  simp (decide := true) only [h, hc, if_false, Bool.false_eq_true, if_true]

theorem switch_obracket (x : Nat) (lc : Char) (l : Loc) (e : Env) (hc : l.comment = false) (h : l.c = '[') :
    switch x lc l e = openSet x l e := by
  unfold switch
  simp (decide := true) only [h, hc, if_false, Bool.false_eq_true, if_true]

theorem switch_newline (x : Nat) (lc : Char) (l : Loc) (e : Env) (h : l.c = '\n') :
    switch x lc l e = newline x lc l e := by
  unfold switch
  simp (decide := true) only [h, if_false, true_or, if_true]

theorem parse_close {l : Loc} {A : List Tree} (hk : l.kind = .struct ∨ l.kind = .development ∨ l.kind = .set)
    (hc : l.comment = false) (hm : Members l) (hp : Pend l A) (d : Char) (r : List Char) (hd : d ≠ ':') (a b : Nat) :
    ∃ m, parse 1 0 l (good (closer l.kind :: d :: r) a b) = some (0, m, good (d :: r) a b) ∧
      m.tree = .mk l.kind l.label l.cmd l.tail A := by
  have hp' : ∀ c, Pend { l with c := c, lastc := l.c } A := fun c => hp
  have hd' : ¬ some d = some ':' := fun e => hd (by simpa using e)
  unfold Members at hm
  have fin : ∀ c, step 0 l (good (closer l.kind :: d :: r) a b) =
      .ret 0 { l with c := c, lastc := l.c, args := A, str := [] } (good (d :: r) a b) →
      ∃ m, parse 1 0 l (good (closer l.kind :: d :: r) a b) = some (0, m, good (d :: r) a b) ∧
      m.tree = .mk l.kind l.label l.cmd l.tail A := by
    intro c h
    refine ⟨{ l with c := c, lastc := l.c, args := A, str := [] }, ?_, rfl⟩
    rw [parse, if_neg (by simp [good]), h]
  have tailNil : ∀ c, ({ l with c := c, lastc := l.c, tail := l.tail ++ [] } : Loc) = { l with c := c, lastc := l.c } := by
    intro c; simp
  rcases hk with hk | hk | hk
  · apply fin ')'
    have hm' : (!l.cmd.isEmpty || l.kind == .set || false) = true := by
      rw [hk] at hm ⊢
      simpa using hm
    have hcl : closer l.kind = ')' := by rw [hk]; rfl
    rw [hcl]
    rw [step_char 0 ')' (by decide) l hc, switch_paren _ _ _ _ (by exact hc) (by rfl)]
    unfold closeStruct
    simp only [good, Stream.peek, Bool.or_self, Bool.false_eq_true, if_false, if_neg hd']
    rw [hm', tailNil, flush_member (A := A) (hp' ')')]
    rfl
  · apply fin '}'
    have hm' : (!l.cmd.isEmpty || l.kind == .set || l.kind == .development) = true := hm
    have hcl : closer l.kind = '}' := by rw [hk]; rfl
    rw [hcl]
    rw [step_char 0 '}' (by decide) l hc, switch_brace _ _ _ _ (by exact hc) (by rfl)]
    unfold closeStruct
    simp only [good, Stream.peek, Bool.or_self, Bool.false_eq_true, if_false, if_neg hd']
    rw [hm', tailNil, flush_member (A := A) (hp' '}')]
    rfl
  · apply fin ']'
    have hm' : (!l.cmd.isEmpty || l.kind == .set) = true := by simp [hk]
    have hcl : closer l.kind = ']' := by rw [hk]; rfl
    rw [hcl]
    rw [step_char 0 ']' (by decide) l hc, switch_bracket _ _ _ _ (by exact hc) (by rfl)]
    simp only
    rw [hm', flush_member (A := A) (hp' ']')]
    rfl

/-! ## Opening brackets -/

/-- The label before a bracket, read. -/
theorem reads_label {lab : List Char} (h : Label lab) (l : Loc) (r : List Char) (a b : Nat) (hc : l.comment = false)
    (hs : l.str = []) :
    ∃ c lc, Reads l (good (lab ++ r) a b) { l with c := c, lastc := lc, str := lab } (good r a b) ∧
      (lab = [] → c = l.c) ∧ (lab ≠ [] → c = ':') := by
  rcases h with rfl | ⟨w, hw, rfl⟩
  · refine ⟨l.c, l.lastc, ?_, fun _ => rfl, fun h => absurd rfl h⟩
    have : ({ l with str := [] } : Loc) = l := by cases l; simp only at hs; subst hs; rfl
    simpa [this] using Reads.refl l (good r a b)
  · obtain ⟨c, lc, h1⟩ := reads_word hw l (':' :: r) a b hc
    have h2 := Reads.cont (l := { l with c := c, lastc := lc, str := l.str ++ w }) (e := good (':' :: r) a b) rfl
      (step_plain (c := ':') (by decide) { l with c := c, lastc := lc, str := l.str ++ w } hc r a b)
    refine ⟨':', c, ?_, fun h => absurd h (by simp), fun _ => rfl⟩
    have := h1.trans h2
    simpa [hs] using this

theorem flush_nil (x : Nat) (m : Bool) (l : Loc) (h : l.str = []) : flush x m l = (l, false) := by
  unfold flush
  simp [h]

/-- An opening bracket after a label that was read, or after none. -/
theorem step_open {lab : List Char} (k : Kind) (l : Loc) (r : List Char) (a b : Nat)
    (hk : k = .struct ∨ k = .development) (hc : l.comment = false) (hl : l.lbl = []) (hs : l.str = lab)
    (hlab : lab ≠ [] → l.c = ':') :
    step 0 l (good ((if k = .struct then '(' else '{') :: r) a b) =
      .sub k lab { l with c := if k = .struct then '(' else '{', lastc := l.c, str := [], lbl := [] } (good r a b) := by
  have key : ∀ c, openStruct k 0 { l with c := c, lastc := l.c } (good r a b) =
      .sub k lab { l with c := c, lastc := l.c, str := [], lbl := [] } (good r a b) := by
    intro c
    unfold openStruct
    simp only
    by_cases h : lab = []
    · rw [if_neg (by simp [hs, h]), flush_nil _ _ _ (by simp [hs, h])]
      simp only [Act.flushed, Bool.false_eq_true, if_false, hl, hs, h]
    · rw [if_pos (by simp [hs, h, hlab h]), hs]
  rcases hk with rfl | rfl
  · rw [if_pos rfl, step_char 0 '(' (by decide) l hc, switch_open _ _ _ _ (by exact hc) (by rfl)]
    exact key '('
  · rw [if_neg (by decide), step_char 0 '{' (by decide) l hc, switch_obrace _ _ _ _ (by exact hc) (by rfl)]
    exact key '{'

theorem step_openSet {lab : List Char} (l : Loc) (d : Char) (r : List Char) (a b : Nat) (hc : l.comment = false)
    (hl : l.lbl = []) (hs : l.str = lab) (hlab : lab ≠ [] → l.c = ':') (hd : d ≠ ']') :
    step 0 l (good ('[' :: d :: r) a b) =
      .sub .set lab { l with c := '[', lastc := l.c, str := [], lbl := [] } (good (d :: r) a b) := by
  rw [step_char 0 '[' (by decide) l hc, switch_obracket _ _ _ _ (by exact hc) (by rfl)]
  unfold openSet openSet'
  simp only [good, Stream.peek, Bool.or_self, Bool.false_eq_true, if_false]
  rw [if_neg (by simpa using hd)]
  by_cases h : l.c = ':'
  · simp only [if_pos h]
    rw [flush_nil _ _ _ rfl]
    simp only [Act.flushed, Bool.false_eq_true, if_false, hs]
  · have hn : lab = [] := by
      by_cases hn : lab = []
      · exact hn
      · exact absurd (hlab hn) h
    simp only [if_neg h]
    rw [flush_nil _ _ _ (by simp [hs, hn])]
    simp only [Act.flushed, Bool.false_eq_true, if_false, hl, hs, hn]

theorem step_emptySet (l : Loc) (d : Char) (r : List Char) (a b : Nat) (hc : l.comment = false) (hl : l.lbl = [])
    (hs : l.str = []) (hh : high l.c = false) (hd : 32 ≤ d.toNat ∧ d ≠ ';') :
    step 0 l (good ('[' :: ']' :: d :: r) a b) =
      .cont { l with c := '[', lastc := l.c, str := [], lbl := [], args := l.args ++ [.mk .set [] [] [] []] }
        (good (d :: r) a b) := by
  have hlow : low (some d) = false := by simp [low]; omega
  rw [step_char 0 '[' (by decide) l hc, switch_obracket _ _ _ _ (by exact hc) (by rfl)]
  unfold openSet openSet'
  simp only [good, Stream.peek, Stream.get, Bool.or_self, Bool.false_eq_true, if_false, if_true, hlow, Bool.false_or,
    beq_iff_eq, Option.some.injEq, hd.2]
  have : (if l.c = ':' then ({ l with c := '[', lastc := l.c, lbl := l.str, str := [] } : Loc)
      else { l with c := '[', lastc := l.c }) = { l with c := '[', lastc := l.c, str := [], lbl := [] } := by
    split
    · rw [hs]
    · cases l; simp only at hs hl; subst hs hl; rfl
  rw [this]
  simp [hh]

end Verif.Source
