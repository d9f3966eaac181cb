import Verif.Source.Lemmas
/-!
# Structures written are read back
-/
namespace Verif.Source

theorem delim_cons {r : List Char} (h : Delim r) : ∃ d r', r = d :: r' ∧ d ≠ ':' ∧ 32 ≤ d.toNat ∧ d ≠ ';' := by
  obtain ⟨d, r', rfl, h⟩ := h
  refine ⟨d, r', rfl, ?_⟩
  rcases h with rfl | rfl | rfl | rfl <;> decide

/-- The first character of a word. -/
theorem word_head {w : List Char} (h : Word w) (hn : w ≠ []) : ∃ d r, w = d :: r ∧ d ≠ ']' ∧ 32 < d.toNat := by
  cases h with
  | nil => exact absurd rfl hn
  | plain c w hc _ => exact ⟨c, w, rfl, hc.2.2.2.2.2.2.2.2.2.2.1, hc.1⟩
  | quoted q w _ _ => exact ⟨'"', _, rfl, by decide, by decide⟩
  | bar w _ => exact ⟨'|', _, rfl, by decide, by decide⟩

theorem label_head {lab : List Char} (h : Label lab) (c : Char) (r : List Char) (hc : c ≠ ']' ∧ 32 < c.toNat) :
    ∃ d r', lab ++ c :: r = d :: r' ∧ d ≠ ']' ∧ 32 < d.toNat := by
  rcases h with rfl | ⟨w, hw, rfl⟩
  · exact ⟨c, r, rfl, hc⟩
  · cases w with
    | nil => exact ⟨':', c :: r, rfl, by decide, by decide⟩
    | cons x w =>
      obtain ⟨d, r', he, h⟩ := word_head hw (by simp)
      cases he
      exact ⟨x, w ++ [':'] ++ c :: r, by simp, h⟩

theorem print_head {t : Tree} (h : Fine t) : ∃ d r, t.print = d :: r ∧ d ≠ ']' ∧ 32 < d.toNat := by
  cases h with
  | atom w hw hn => exact word_head hw hn
  | struct lab cmd args hl _ _ _ =>
    obtain ⟨d, r, h, h'⟩ := label_head hl '(' (cmd ++ printEach args ++ [')']) (by decide)
    exact ⟨d, r, by simpa [Tree.print] using h, h'⟩
  | development lab args hl _ =>
    obtain ⟨d, r, h, h'⟩ := label_head hl '{' (printEach args ++ ['}']) (by decide)
    exact ⟨d, r, by simpa [Tree.print] using h, h'⟩
  | set lab args hl _ _ =>
    obtain ⟨d, r, h, h'⟩ := label_head hl '[' (printSet args ++ [']']) (by decide)
    exact ⟨d, r, by simpa [Tree.print] using h, h'⟩

/-- Reading a structure from a state whose text is pending, up to its closing bracket. -/
theorem parse_of_reads {l m : Loc} {e e' : Env} (h : Reads l e m e') {r : Int × Loc × Env} {n : Nat}
    (hp : parse n 0 m e' = some r) : ∃ n, parse n 0 l e = some r := by
  obtain ⟨k, h⟩ := h
  exact ⟨k + n, h n r hp⟩

theorem reads_fine {t : Tree} (h : Fine t) : ItemReads t := by
  induction h with
  | atom w hw hn =>
    intro l r a b hc hs hl hh hr
    obtain ⟨c, lc, h⟩ := reads_word hw l r a b hc
    refine ⟨c, lc, w, l.args, ?_, Or.inr ⟨hn, rfl⟩⟩
    simpa [Tree.print, hs] using h
  | struct lab cmd args hlab hw hn _ ih =>
    intro l r a b hc hs hl hh hr
    obtain ⟨d, r', rfl, hd⟩ : ∃ d r', r = d :: r' ∧ d ≠ ':' := by
      rcases hr with hr | ⟨⟨r', rfl⟩, -⟩
      · obtain ⟨d, r', h, h', -⟩ := delim_cons hr
        exact ⟨d, r', h, h'⟩
      · exact ⟨'\n', r', rfl, by decide⟩
    obtain ⟨c, lc, h1, hc1, hc2⟩ := reads_label hlab l ('(' :: (cmd ++ (printEach args ++ ')' :: d :: r'))) a b hc hs
    have h2 := step_open (lab := lab) .struct { l with c := c, lastc := lc, str := lab }
      (cmd ++ (printEach args ++ ')' :: d :: r')) a b (Or.inl rfl) hc hl rfl hc2
    -- the structure itself
    have hsub : ∃ m, (∃ n, parse n 0 (.new .struct lab []) (good (cmd ++ (printEach args ++ ')' :: d :: r')) a b) =
        some (0, m, good (d :: r') a b)) ∧ m.tree = .mk .struct lab cmd [] args := by
      obtain ⟨c', lc', g1⟩ := reads_word hw (.new .struct lab []) (printEach args ++ ')' :: d :: r') a b rfl
      cases args with
      | nil =>
        -- the command is ended by the bracket
        have hst : step 0 { Loc.new .struct lab [] with c := c', lastc := lc', str := [] ++ cmd }
            (good (')' :: d :: r') a b) =
            .ret 0 { Loc.new .struct lab [] with c := ')', lastc := c', str := [], cmd := cmd } (good (d :: r') a b) := by
          rw [step_char 0 ')' (by decide) _ rfl, switch_paren _ _ _ _ (by rfl) (by rfl)]
          unfold closeStruct
          have hd' : ¬ some d = some ':' := fun e => hd (by simpa using e)
          simp only [good, Stream.peek, Bool.or_self, Bool.false_eq_true, if_false, if_neg hd']
          unfold flush
          have : ([] ++ cmd).isEmpty = false := by simpa using hn
          simp only [this, Bool.false_eq_true, if_false]
          simp [Loc.new, Act.flushed]
        refine ⟨{ Loc.new .struct lab [] with c := ')', lastc := c', str := [], cmd := cmd },
          parse_of_reads g1 (n := 1) ?_, rfl⟩
        have : printEach [] ++ ')' :: d :: r' = ')' :: d :: r' := by simp [printEach]
        rw [this, parse, if_neg (by simp [good]), show ((Loc.new .struct lab []).str ++ cmd) = [] ++ cmd from rfl, hst]
      | cons t ts =>
        -- the command is ended by a space
        have hst : step 0 { Loc.new .struct lab [] with c := c', lastc := lc', str := [] ++ cmd }
            (good (' ' :: (t.print ++ (printEach ts ++ ')' :: d :: r'))) a b) =
            .cont { Loc.new .struct lab [] with c := ' ', lastc := c', str := [], cmd := cmd }
              (good (t.print ++ (printEach ts ++ ')' :: d :: r')) a b) := by
          rw [step_space _ rfl]
          unfold flush
          have : ([] ++ cmd).isEmpty = false := by simpa using hn
          simp only [this, Bool.false_eq_true, if_false]
          simp [Loc.new, Act.flushed]
        have g2 := Reads.cont (e := good (' ' :: (t.print ++ (printEach ts ++ ')' :: d :: r'))) a b) rfl hst
        have hdl : Delim (printEach ts ++ ')' :: d :: r') := by
          cases ts with
          | nil => exact ⟨')', d :: r', by simp [printEach], by simp⟩
          | cons t' ts' => exact ⟨' ', _, by simp [printEach]; rfl, by simp⟩
        obtain ⟨c2, lc2, s2, A2, g3, p3⟩ := ih t (by simp)
          { Loc.new .struct lab [] with c := ' ', lastc := c', str := [], cmd := cmd } _ a b rfl rfl rfl rfl (Or.inl hdl)
        have hmem : Members { Loc.new .struct lab [] with c := c2, lastc := lc2, str := s2, cmd := cmd, args := A2 } := by
          unfold Members
          simp [hn]
        obtain ⟨c4, lc4, s4, A4, g4, p4⟩ := reads_each ts (fun x hx => ih x (by simp [hx]))
          { Loc.new .struct lab [] with c := c2, lastc := lc2, str := s2, cmd := cmd, args := A2 } _
          (')' :: d :: r') a b rfl rfl hmem p3 ⟨')', _, rfl, by simp⟩
        obtain ⟨m, g5, ht⟩ := parse_close (l := { Loc.new .struct lab [] with c := c4, lastc := lc4, str := s4, cmd := cmd, args := A4 })
          (Or.inl rfl) rfl hmem p4 d r' hd a b
        refine ⟨m, parse_of_reads ?_ g5, ht⟩
        have g1' : Reads (.new .struct lab []) (good (cmd ++ (printEach (t :: ts) ++ ')' :: d :: r')) a b)
            { Loc.new .struct lab [] with c := c', lastc := lc', str := [] ++ cmd }
            (good (' ' :: (t.print ++ (printEach ts ++ ')' :: d :: r'))) a b) := by
          have he : printEach (t :: ts) ++ ')' :: d :: r' = ' ' :: (t.print ++ (printEach ts ++ ')' :: d :: r')) := by
            simp [printEach]
          rw [he] at g1 ⊢
          exact g1
        exact ((g1'.trans g2).trans g3).trans g4
    obtain ⟨m, hm, hmt⟩ := hsub
    have h3 := Reads.sub rfl h2 hm
    refine ⟨'(', c, [], l.args ++ [.mk .struct lab cmd [] args], ?_, Or.inl ⟨rfl, rfl⟩⟩
    have := h1.trans h3
    rw [hmt] at this
    have e1 : ({ l with c := '(', lastc := c, str := [], lbl := [], args := l.args ++ [.mk .struct lab cmd [] args] } : Loc) =
      { l with c := '(', lastc := c, str := [], args := l.args ++ [.mk .struct lab cmd [] args] } := by rw [← hl]
    rw [← e1]
    simpa [Tree.print] using this
  | development lab args hlab _ ih =>
    intro l r a b hc hs hl hh hr
    obtain ⟨d, r', rfl, hd⟩ : ∃ d r', r = d :: r' ∧ d ≠ ':' := by
      rcases hr with hr | ⟨⟨r', rfl⟩, -⟩
      · obtain ⟨d, r', h, h', -⟩ := delim_cons hr
        exact ⟨d, r', h, h'⟩
      · exact ⟨'\n', r', rfl, by decide⟩
    obtain ⟨c, lc, h1, hc1, hc2⟩ := reads_label hlab l ('{' :: (printEach args ++ '}' :: d :: r')) a b hc hs
    have h2 := step_open (lab := lab) .development { l with c := c, lastc := lc, str := lab }
      (printEach args ++ '}' :: d :: r') a b (Or.inr rfl) hc hl rfl hc2
    have hsub : ∃ m, (∃ n, parse n 0 (.new .development lab []) (good (printEach args ++ '}' :: d :: r') a b) =
        some (0, m, good (d :: r') a b)) ∧ m.tree = .mk .development lab [] [] args := by
      obtain ⟨c4, lc4, s4, A4, g4, p4⟩ := reads_each args ih (.new .development lab []) [] ('}' :: d :: r') a b rfl rfl rfl
        (Or.inl ⟨rfl, rfl⟩) ⟨'}', _, rfl, by simp⟩
      obtain ⟨m, g5, ht⟩ := parse_close (l := { Loc.new .development lab [] with c := c4, lastc := lc4, str := s4, args := A4 })
        (Or.inr (Or.inl rfl)) rfl rfl p4 d r' hd a b
      exact ⟨m, parse_of_reads g4 g5, ht⟩
    obtain ⟨m, hm, hmt⟩ := hsub
    have h3 := Reads.sub rfl h2 hm
    refine ⟨'{', c, [], l.args ++ [.mk .development lab [] [] args], ?_, Or.inl ⟨rfl, rfl⟩⟩
    have := h1.trans h3
    rw [hmt] at this
    have e1 : ({ l with c := '{', lastc := c, str := [], lbl := [], args := l.args ++ [.mk .development lab [] [] args] } : Loc) =
      { l with c := '{', lastc := c, str := [], args := l.args ++ [.mk .development lab [] [] args] } := by rw [← hl]
    rw [← e1]
    simpa [Tree.print] using this
  | set lab args hlab hempty hargs ih =>
    intro l r a b hc hs hl hh hr
    cases args with
    | nil =>
      rcases hr with hr | ⟨-, hr⟩
      · obtain ⟨d, r', rfl, -, hd⟩ := delim_cons hr
        have h1 := Reads.cont rfl (step_emptySet l d r' a b hc hl hs hh hd)
        have e1 : ({ l with c := '[', lastc := l.c, str := [], lbl := [], args := l.args ++ [.mk .set [] [] [] []] } : Loc) =
          { l with c := '[', lastc := l.c, str := [], args := l.args ++ [.mk .set [] [] [] []] } := by rw [← hl]
        rw [e1] at h1
        refine ⟨'[', l.c, [], l.args ++ [.mk .set [] [] [] []], ?_, Or.inl ⟨rfl, by rw [hempty rfl]⟩⟩
        simpa [Tree.print, printSet, hempty rfl] using h1
      · exact absurd rfl (hr rfl)
    | cons t ts =>
      obtain ⟨d, r', rfl, hd⟩ : ∃ d r', r = d :: r' ∧ d ≠ ':' := by
        rcases hr with hr | ⟨⟨r', rfl⟩, -⟩
        · obtain ⟨d, r', h, h', -⟩ := delim_cons hr
          exact ⟨d, r', h, h'⟩
        · exact ⟨'\n', r', rfl, by decide⟩
      obtain ⟨x, xs, hx, hx', -⟩ := print_head (hargs t (by simp))
      obtain ⟨c, lc, h1, hc1, hc2⟩ := reads_label hlab l ('[' :: (t.print ++ (printEach ts ++ ']' :: d :: r'))) a b hc hs
      have h2 := step_openSet (lab := lab) { l with c := c, lastc := lc, str := lab } x
        (xs ++ (printEach ts ++ ']' :: d :: r')) a b hc hl rfl hc2 hx'
      have hx2 : x :: (xs ++ (printEach ts ++ ']' :: d :: r')) = t.print ++ (printEach ts ++ ']' :: d :: r') := by
        rw [hx]; rfl
      rw [hx2] at h2
      have hsub : ∃ m, (∃ n, parse n 0 (.new .set lab []) (good (t.print ++ (printEach ts ++ ']' :: d :: r')) a b) =
          some (0, m, good (d :: r') a b)) ∧ m.tree = .mk .set lab [] [] (t :: ts) := by
        have hdl : Delim (printEach ts ++ ']' :: d :: r') := by
          cases ts with
          | nil => exact ⟨']', d :: r', by simp [printEach], by simp⟩
          | cons t' ts' => exact ⟨' ', _, by simp [printEach]; rfl, by simp⟩
        obtain ⟨c2, lc2, s2, A2, g3, p3⟩ := ih t (by simp) (.new .set lab []) _ a b rfl rfl rfl rfl (Or.inl hdl)
        obtain ⟨c4, lc4, s4, A4, g4, p4⟩ := reads_each ts (fun x hx => ih x (by simp [hx]))
          { Loc.new .set lab [] with c := c2, lastc := lc2, str := s2, args := A2 } _
          (']' :: d :: r') a b rfl rfl rfl p3 ⟨']', _, rfl, by simp⟩
        obtain ⟨m, g5, ht⟩ := parse_close (l := { Loc.new .set lab [] with c := c4, lastc := lc4, str := s4, args := A4 })
          (Or.inr (Or.inr rfl)) rfl rfl p4 d r' hd a b
        exact ⟨m, parse_of_reads (g3.trans g4) g5, ht⟩
      obtain ⟨m, hm, hmt⟩ := hsub
      have h3 := Reads.sub rfl h2 hm
      refine ⟨'[', c, [], l.args ++ [.mk .set lab [] [] (t :: ts)], ?_, Or.inl ⟨rfl, rfl⟩⟩
      have := h1.trans h3
      rw [hmt] at this
      have e1 : ({ l with c := '[', lastc := c, str := [], lbl := [], args := l.args ++ [.mk .set lab [] [] (t :: ts)] } : Loc) =
        { l with c := '[', lastc := c, str := [], args := l.args ++ [.mk .set lab [] [] (t :: ts)] } := by rw [← hl]
      rw [← e1]
      simpa [Tree.print, printSet] using this

/-- The end of a line that is followed by a character above 32, or by nothing. -/
theorem step_newline (l : Loc) (A : List Tree) (hk : l.kind = .root) (hc : l.comment = false) (hp : Pend l A)
    (hx : l.expectSet = false) (d : Char) (r : List Char) (hd : 32 < d.toNat) :
    step 0 l (good ('\n' :: d :: r) 0 0) =
      .cont { l with c := '\n', lastc := l.c, args := A, str := [] } (good (d :: r) 0 0) := by
  have hp' : Pend { l with c := '\n', lastc := l.c } A := hp
  have hds : (d == ' ') = false := by
    rw [beq_eq_false_iff_ne]
    rintro rfl
    revert hd
    decide
  have hdl : decide (d.toNat < 32) = false := by
    rw [decide_eq_false_iff_not]
    omega
  have hsk : skipLow ⟨d :: r, false, false⟩ = ⟨d :: r, false, false⟩ := by
    unfold skipLow
    simp only [List.dropWhile_cons, hdl, Bool.false_eq_true, if_false]
  have hgi : getIndent ⟨d :: r, false, false⟩ = (0, ⟨d :: r, false, false⟩) := by
    unfold getIndent
    simp only [Bool.false_eq_true, if_false, List.takeWhile_cons, List.dropWhile_cons, hds]
    rfl
  have hm : (!l.cmd.isEmpty || l.kind == .set || l.kind == .root) = true := by simp [hk]
  have hl : ({ l with c := '\n', lastc := l.c, comment := false } : Loc) = { l with c := '\n', lastc := l.c } := by rw [← hc]
  rw [step_char 0 '\n' (by decide) l hc, switch_newline _ _ _ _ (by rfl)]
  unfold newline
  simp only [good, hc, Bool.false_and, Bool.false_eq_true, if_false, hsk, hgi, Nat.lt_irrefl, gt_iff_lt]
  rw [hm, ← hc, flush_member hp']
  rfl

theorem parse_lines (ts : List Tree) (h : ∀ t ∈ ts, Fine t ∧ (t.kind = .set → t.args ≠ [])) :
    ∀ (l : Loc), l.kind = .root → l.comment = false → l.str = [] → l.lbl = [] → l.expectSet = false → high l.c = false →
    ts ≠ [] →
    ∃ n m s, parse n 0 l (good (printLines ts) 0 0) = some (0, m, ⟨s, 0, 0⟩) ∧ s.eof = true ∧
      m.tree = .mk .root l.label l.cmd l.tail (l.args ++ ts) := by
  induction ts with
  | nil => exact fun _ _ _ _ _ _ _ h => absurd rfl h
  | cons t ts ih =>
    intro l hk hc hs hl hx hh _
    obtain ⟨hf, ht⟩ := h t (by simp)
    obtain ⟨c, lc, s, A, h1, p1⟩ := reads_fine hf l ('\n' :: printLines ts) 0 0 hc hs hl hh (Or.inr ⟨⟨_, rfl⟩, ht⟩)
    cases ts with
    | nil =>
      have hst : step 0 { l with c := c, lastc := lc, str := s, args := A } (good ['\n'] 0 0) =
          .cont { l with c := '\n', lastc := c, args := l.args ++ [t], str := [] } ⟨⟨[], true, true⟩, 0, 0⟩ := by
        have hm : (!l.cmd.isEmpty || l.kind == .set || l.kind == .root) = true := by simp [hk]
        have hp' : Pend { l with c := '\n', lastc := c, str := s, args := A } (l.args ++ [t]) := p1
        rw [step_char 0 '\n' (by decide) { l with c := c, lastc := lc, str := s, args := A } hc, switch_newline _ _ _ _ (by rfl)]
        unfold newline
        have hsk : skipLow ⟨[], false, false⟩ = ⟨[], true, true⟩ := rfl
        have hgi : getIndent ⟨[], true, true⟩ = (0, ⟨[], true, true⟩) := rfl
        simp only [good, hc, Bool.false_and, Bool.false_eq_true, if_false, hsk, hgi, Nat.lt_irrefl, gt_iff_lt]
        rw [hm, ← hc, flush_member hp']
        rfl
      have h2 := Reads.cont (e := good ['\n'] 0 0) rfl hst
      obtain ⟨n, hn⟩ := parse_of_reads (h1.trans h2) (n := 1)
        (r := (0, { l with c := '\n', lastc := c, args := l.args ++ [t], str := [] }, ⟨⟨[], true, true⟩, 0, 0⟩)) rfl
      refine ⟨n, { l with c := '\n', lastc := c, args := l.args ++ [t], str := [] }, ⟨[], true, true⟩, ?_, ?_, ?_⟩
      · simpa [printLines] using hn
      · rfl
      · simp [Loc.tree, hk]
    | cons t' ts' =>
      obtain ⟨d, r, hd, -, hd'⟩ := print_head (h t' (by simp)).1
      have hpl : printLines (t' :: ts') = d :: (r ++ '\n' :: printLines ts') := by
        simp [printLines, hd]
      have hst := step_newline { l with c := c, lastc := lc, str := s, args := A } (l.args ++ [t]) hk hc p1 hx d
        (r ++ '\n' :: printLines ts') hd'
      rw [← hpl] at hst
      have h2 := Reads.cont (e := good ('\n' :: printLines (t' :: ts')) 0 0) rfl hst
      obtain ⟨n, m, s', hn, hs', hm⟩ := ih (fun x hx => h x (by simp [hx]))
        { l with c := '\n', lastc := c, args := l.args ++ [t], str := [] } hk hc rfl hl hx (by show high '\n' = false; decide) (by simp)
      obtain ⟨n', hn'⟩ := parse_of_reads (h1.trans h2) hn
      refine ⟨n', m, s', ?_, hs', ?_⟩
      · simpa [printLines] using hn'
      · simpa using hm

end Verif.Source
