import Verif.Source.Round
import Verif.Source.Ends
/-!
# C85, C86
-/
namespace Verif.Source

/-- A file of these structures. -/
def file (ts : List Tree) : Tree := .mk .root [] [] [] ts

theorem readText_mono {f g : Nat} {text : List Char} {r : Option Tree} (h : readText f text = some r) (hg : f ≤ g) :
    readText g text = some r := by
  unfold readText at h ⊢
  obtain ⟨a, ha, h⟩ := Option.map_eq_some_iff.1 h
  rw [parse_mono ha hg, Option.map_some, h]

theorem readText_det {f g : Nat} {text : List Char} {r r' : Option Tree} (h : readText f text = some r)
    (h' : readText g text = some r') : r = r' := by
  rcases Nat.le_total f g with hg | hg
  · exact Option.some.inj ((readText_mono h hg).symm.trans h')
  · exact Option.some.inj (h.symm.trans (readText_mono h' hg))

/-! ## C85 -/

/-- **C85** in full: structures written to a file, each on a line, are what is read from it. -/
def C85_full : Prop :=
  ∀ ts, (∀ t ∈ ts, Written t) → ∃ f, readText f (file ts).print = some (some (file ts))

/-- **C85**, proved: it holds where there are no tails, empty sets have no labels, and no line is an empty set. -/
theorem C85_read_back_partial (ts : List Tree) (hne : ts ≠ [])
    (h : ∀ t ∈ ts, Fine t ∧ (t.kind = .set → t.args ≠ [])) :
    ∃ f, ∀ g, f ≤ g → readText g (file ts).print = some (some (file ts)) := by
  obtain ⟨n, m, s, h1, h2, h3⟩ := parse_lines ts h (.new .root [] []) rfl rfl rfl rfl rfl (by decide) hne
  refine ⟨n, fun g hg => readText_mono (f := n) ?_ hg⟩
  have : (file ts).print = printLines ts := by simp [file, Tree.print]
  unfold readText
  rw [this]
  rw [show (⟨⟨printLines ts, false, false⟩, 0, 0⟩ : Env) = good (printLines ts) 0 0 from rfl, h1, Option.map_some]
  simp only [h2, Int.lt_irrefl, if_false, Bool.not_true, Bool.false_eq_true]
  rw [h3]
  rfl

/-- So no two such files are written alike. -/
theorem C85_injective_partial (ts us : List Tree) (hts : ts ≠ []) (hus : us ≠ [])
    (ht : ∀ t ∈ ts, Fine t ∧ (t.kind = .set → t.args ≠ [])) (hu : ∀ t ∈ us, Fine t ∧ (t.kind = .set → t.args ≠ []))
    (h : (file ts).print = (file us).print) : ts = us := by
  obtain ⟨f, hf⟩ := C85_read_back_partial ts hts ht
  obtain ⟨g, hg⟩ := C85_read_back_partial us hus hu
  have h1 := hf f (Nat.le_refl _)
  rw [h] at h1
  have h2 := readText_det h1 (hg g (Nat.le_refl _))
  simp only [Option.some.injEq, file, Tree.mk.injEq, true_and] at h2
  exact h2

/-- A word of plain characters. -/
theorem word_of_plain (w : List Char) (h : w.all fun c => decide (Plain c)) : Word w := by
  induction w with
  | nil => exact .nil
  | cons c w ih =>
    rw [List.all_cons, Bool.and_eq_true] at h
    exact .plain c w (of_decide_eq_true h.1) (ih h.2)

/-- `(f (g):t)` -/
def withTail : Tree := .mk .struct [] ['f'] [] [.mk .struct [] ['g'] [':', 't'] []]
/-- `(f x:[] (g))` -/
def withLabel : Tree := .mk .struct [] ['f'] [] [.mk .set ['x', ':'] [] [] [], .mk .struct [] ['g'] [] []]
/-- `[]` -/
def emptySet : Tree := .mk .set [] [] [] []

theorem written_tail : Written withTail :=
  .struct _ _ _ _ (Or.inl rfl) (word_of_plain _ (by decide)) (by simp) (Or.inl rfl) (by
    intro t ht
    obtain rfl := List.mem_singleton.1 ht
    exact .struct _ _ _ _ (Or.inl rfl) (word_of_plain _ (by decide)) (by simp)
      (Or.inr ⟨['t'], by intro c hc; obtain rfl := List.mem_singleton.1 hc; decide, rfl⟩) (by simp))

theorem written_label : Written withLabel :=
  .struct _ _ _ _ (Or.inl rfl) (word_of_plain _ (by decide)) (by simp) (Or.inl rfl) (by
    intro t ht
    rcases List.mem_cons.1 ht with rfl | ht
    · exact .set _ _ (Or.inr ⟨['x'], word_of_plain _ (by decide), rfl⟩) (by simp)
    · obtain rfl := List.mem_singleton.1 ht
      exact .struct _ _ _ _ (Or.inl rfl) (word_of_plain _ (by decide)) (by simp) (Or.inl rfl) (by simp))

/-- **C85** does not hold in full: a tail takes the brackets after it, the label of an empty set goes to the next
structure as well, and an empty set on a line is lost. -/
theorem C85_read_back_violated : ¬ C85_full ∧
    (∃ f, readText f (file [withTail]).print =
      some (some (file [.mk .struct [] ['f'] [] [.mk .struct [] ['g'] [':', 't', ')'] []]]))) ∧
    (∃ f, readText f (file [withLabel]).print =
      some (some (file [.mk .struct [] ['f'] [] [.mk .set ['x', ':'] [] [] [], .mk .struct ['x', ':'] ['g'] [] []]]))) ∧
    (∃ f, readText f (file [emptySet]).print = some (some (file []))) := by
  have h1 : readText 30 (file [withTail]).print =
      some (some (file [.mk .struct [] ['f'] [] [.mk .struct [] ['g'] [':', 't', ')'] []]])) := rfl
  refine ⟨fun h => ?_, ⟨30, h1⟩, ⟨30, rfl⟩, ⟨30, rfl⟩⟩
  obtain ⟨f, hf⟩ := h [withTail] (by
    intro t ht
    obtain rfl := List.mem_singleton.1 ht
    exact written_tail)
  have := readText_det h1 hf
  simp [file, withTail] at this

/-- Structures of all kinds: `x:(f a "b c" y:{a (g)} z:[p q [] |[]])`. -/
theorem C85_nonvacuous :
    let t : Tree := .mk .struct "x:".toList "f".toList [] [.mk .atom [] "a".toList [] [], .mk .atom [] "\"b c\"".toList [] [],
      .mk .development "y:".toList [] [] [.mk .atom [] "a".toList [] [], .mk .struct [] "g".toList [] []],
      .mk .set "z:".toList [] [] [.mk .atom [] "p".toList [] [], .mk .set [] [] [] [], .mk .atom [] "|[]".toList [] []]]
    Fine t ∧ t.print = "x:(f a \"b c\" y:{ a (g)} z:[p [] |[]])".toList ∧
    readText 60 (file [t]).print = some (some (file [t])) := by
  have hl : ∀ c, Plain c → Label [c, ':'] := fun c h => Or.inr ⟨[c], .plain c [] h .nil, rfl⟩
  have hw : ∀ c, Plain c → Word [c] := fun c h => .plain c [] h .nil
  refine ⟨?_, rfl, rfl⟩
  refine .struct _ _ _ (hl 'x' (by decide)) (hw 'f' (by decide)) (by simp) ?_
  intro t ht
  rcases List.mem_cons.1 ht with rfl | ht
  · exact .atom _ (hw 'a' (by decide)) (by simp)
  rcases List.mem_cons.1 ht with rfl | ht
  · exact .atom _ (.quoted ['b', ' ', 'c'] [] (by decide) .nil) (by decide)
  rcases List.mem_cons.1 ht with rfl | ht
  · refine .development _ _ (hl 'y' (by decide)) ?_
    intro t ht
    rcases List.mem_cons.1 ht with rfl | ht
    · exact .atom _ (hw 'a' (by decide)) (by simp)
    · obtain rfl := List.mem_singleton.1 ht
      exact .struct _ _ _ (Or.inl rfl) (hw 'g' (by decide)) (by simp) (by simp)
  obtain rfl := List.mem_singleton.1 ht
  refine .set _ _ (hl 'z' (by decide)) (by simp) ?_
  intro t ht
  rcases List.mem_cons.1 ht with rfl | ht
  · exact .atom _ (hw 'p' (by decide)) (by simp)
  rcases List.mem_cons.1 ht with rfl | ht
  · exact .set _ _ (Or.inl rfl) (fun _ => rfl) (by simp)
  obtain rfl := List.mem_singleton.1 ht
  exact .atom _ (.bar [] .nil) (by decide)

/-! ## C86 -/

/-- **C86** in full: reading a text ends, with a structure or an error. -/
def C86_full : Prop := ∀ text, ∃ f, (readText f text).isSome = true

/-- **C86**, proved: it does, within as many rounds as the text has characters, where the last line has no quotes and
the text does not end with a space. -/
theorem C86_ends_partial (text : List Char)
    (hq : '"' ∉ text.reverse.takeWhile fun c => c != '\n' && c != '\r') (hs : text.getLast? ≠ some ' ')
    (f : Nat) (hf : text.length + 1 < f) : (readText f text).isSome = true := by
  obtain ⟨r, h, -⟩ := parse_ends f 0 (.new .root [] []) ⟨⟨text, false, false⟩, 0, 0⟩ (Or.inr ⟨rfl, hq, hs⟩)
    (by simpa [Stream.left] using hf)
  unfold readText
  rw [h]
  rfl

/-- In particular if the last line ends. -/
theorem C86_lines_partial (text : List Char) (f : Nat) (hf : text.length + 2 < f) :
    (readText f (text ++ ['\n'])).isSome = true := by
  refine C86_ends_partial _ ?_ ?_ f ?_
  · rw [List.reverse_append]
    simp
  · simp
  · simpa using hf

/-- After `failbit` is set without `eofbit` nothing ends the loop. -/
theorem parse_failed (f : Nat) : ∀ (x : Nat) (l : Loc) (e : Env), l.comment = false → e.s.fail = true → e.s.eof = false →
    parse f x l e = none := by
  induction f with
  | zero => exact fun _ _ _ _ _ _ => rfl
  | succ f ih =>
    intro x l e hc hf he
    have hs : step x l e = .cont { l with c := eofChar, lastc := l.c, str := l.str ++ [eofChar] }
        { e with s := { e.s with fail := true } } := by
      unfold step Stream.get
      simp only [hf, Bool.or_true, if_true, hc, Bool.not_false, Bool.true_and]
      rw [if_neg (by decide)]
      unfold switch
      simp (decide := true) only [hc, if_false, or_self, Bool.false_eq_true]
    rw [parse, if_neg (by simp [he]), hs]
    exact ih _ _ _ hc rfl he

/-- **C86** does not hold in full: reading does not end if a string is open at the end of the text, nor if the last
line is a space. -/
theorem C86_ends_violated : ¬ C86_full ∧ (∀ f, readText f "(f \"a".toList = none) ∧
    (∀ f, readText f "(f a)\n ".toList = none) := by
  have h1 : ∀ f, readText f "(f \"a".toList = none := by
    intro f
    have h : ∀ n, parse n 0 (.new .struct [] []) (good ['f', ' ', '"', 'a'] 0 0) = none := by
      intro n
      match n with
      | 0 => rfl
      | 1 => rfl
      | 2 => rfl
      | n + 3 => rfl
    have h' : parse f 0 (.new .root [] []) (good ['(', 'f', ' ', '"', 'a'] 0 0) = none := by
      match f with
      | 0 => rfl
      | n + 1 =>
        rw [parse, if_neg (by simp [good])]
        rw [show step 0 (.new .root [] []) (good ['(', 'f', ' ', '"', 'a'] 0 0) =
          .sub .struct [] { Loc.new .root [] [] with c := '(' } (good ['f', ' ', '"', 'a'] 0 0) from rfl]
        simp only [h, Option.bind_none]
    unfold readText
    rw [show (⟨⟨"(f \"a".toList, false, false⟩, 0, 0⟩ : Env) = good ['(', 'f', ' ', '"', 'a'] 0 0 from rfl, h']
    rfl
  have h2 : ∀ f, readText f "(f a)\n ".toList = none := by
    intro f
    have hp : ∀ n, parse n 0 { Loc.new .root [] [] with c := '(', args := [.mk .struct [] ['f'] [] [.mk .atom [] ['a'] [] []]] }
        (good ['\n', ' '] 0 0) = none := by
      intro n
      match n with
      | 0 => rfl
      | n + 1 =>
        rw [parse, if_neg (by simp [good])]
        exact parse_failed n 0 _ ⟨⟨[], false, true⟩, 0, 0⟩ rfl rfl rfl
    have h' : parse f 0 (.new .root [] []) (good "(f a)\n ".toList 0 0) = none := by
      cases hx : parse f 0 (.new .root [] []) (good "(f a)\n ".toList 0 0) with
      | none => rfl
      | some r =>
        have h3 := parse_mono hx (Nat.le_add_right f 11)
        have h4 : parse 10 0 (.new .struct [] []) (good ['f', ' ', 'a', ')', '\n', ' '] 0 0) =
          some (0, { Loc.new .struct [] [] with cmd := ['f'], args := [.mk .atom [] ['a'] [] []], c := ')', lastc := 'a' },
            good ['\n', ' '] 0 0) := rfl
        rw [show f + 11 = (f + 10) + 1 from rfl, parse, if_neg (by simp [good])] at h3
        rw [show step 0 (.new .root [] []) (good "(f a)\n ".toList 0 0) =
          .sub .struct [] { Loc.new .root [] [] with c := '(' } (good ['f', ' ', 'a', ')', '\n', ' '] 0 0) from rfl] at h3
        simp only [parse_mono h4 (Nat.le_add_left 10 f), Option.bind_some, Int.lt_irrefl, gt_iff_lt, if_false, counted,
          Nat.lt_irrefl, Bool.false_eq_true] at h3
        rw [show (Loc.tree { Loc.new .struct [] [] with cmd := ['f'], args := [.mk .atom [] ['a'] [] []], c := ')', lastc := 'a' }) =
          .mk .struct [] ['f'] [] [.mk .atom [] ['a'] [] []] from rfl] at h3
        exact absurd ((hp (f + 10)).symm.trans h3) (by simp)
    unfold readText
    rw [show (⟨⟨"(f a)\n ".toList, false, false⟩, 0, 0⟩ : Env) = good "(f a)\n ".toList 0 0 from rfl, h']
    rfl
  refine ⟨fun h => ?_, h1, h2⟩
  obtain ⟨f, hf⟩ := h "(f \"a".toList
  rw [h1] at hf
  cases hf

/-- A text whose last line does not end, with a string in a line before. -/
theorem C86_nonvacuous :
    (readText 40 "(f \"a b\")\nx:(g [a b])".toList).isSome = true ∧
    '"' ∉ ("(f \"a b\")\nx:(g [a b])".toList).reverse.takeWhile (fun c => c != '\n' && c != '\r') ∧
    ("(f \"a b\")\nx:(g [a b])".toList).getLast? ≠ some ' ' := by
  exact ⟨rfl, by decide, by decide⟩

end Verif.Source
