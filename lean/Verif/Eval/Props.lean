import Verif.Eval.Main
/-!
# The values of expressions (C163), guards of programs (C164) and of patterns (C165): theorems
-/
namespace Verif.Eval
open Verif.Atom Verif.Ctx

theorem inv_start (L : Lang) {s : St} (h : Sized s) : Inv L s.m s := ⟨⟨rfl, rfl, rfl, rfl, rfl⟩, fun _ _ e => e, h, fun _ => .inl rfl⟩

theorem Inv.kept {L : Lang} {m : Mem} {s : St} (h : Inv L m s) : Kept m s :=
  ⟨h.rest, fun i hi => by rcases h.stem i with e | ⟨⟨e, _⟩, _⟩; exact e; exact absurd e hi, h.vals⟩

theorem Ready.evaluated {L : Lang} {s : St} {i : Nat} {o : Opd} (h : Ready L s i o) : ∃ n, ∀ N ≥ n, Evaluated L N s i o := by
  obtain ⟨b, hb⟩ := h.ok.member
  obtain ⟨d, ⟨a, ha⟩, h2, _⟩ := h
  exact ⟨max a b, fun N hN => ⟨⟨d, ha N (by omega), h2⟩, hb N (by omega)⟩⟩

/-- C163, for programs whose variables stand for members that are not chains of pointers, in which no pointer
points into a timestamp, duration, string or chain, and as long as there are no more than 4096 words of
results. -/
theorem C163_value_partial (L : Lang) (s : St) (hs : Sized s) (ht : s.m.tidy) (ha : apart s.m) (i k : Nat) (hn : s.nv + k ≤ 4096) :
    (∀ o, Sem L s.m (.cell i) k (some [o]) → ∃ n, ∀ N ≥ n, ∃ s', evaluate L N s i = some (s', true) ∧ Evaluated L N s' i o ∧ Kept s.m s') ∧
    (Sem L s.m (.cell i) k none → ∃ n, ∀ N ≥ n, ∃ s', evaluate L N s i = some (s', false)) := by
  constructor
  · intro o h
    obtain ⟨s', o', e, h1, h2, _, _, h5⟩ := sem_good ht ha h s (inv_start L hs) hn
    cases e
    obtain ⟨a, ha'⟩ := h1.member
    obtain ⟨b, hb⟩ := (h5.ready ht (h2.keep ha)).evaluated
    exact ⟨max a b, fun N hN => ⟨s', ha' N (by omega), hb N (by omega), h2.kept⟩⟩
  · intro h
    obtain ⟨s', h1⟩ := sem_good ht ha h s (inv_start L hs) hn
    obtain ⟨a, ha'⟩ := h1.member
    exact ⟨a, fun N hN => ⟨s', ha' N hN⟩⟩

/-! ## Guards -/

theorem false_iff (w : Word) : isBooleanFalse w = true ↔ w.toNat / 2 ^ 24 = 0x81 ∧ w.toNat % 2 ^ 8 = 0 := by
  have h1 : getDescriptor w = 0x81 ↔ w.toNat / 2 ^ 24 = 0x81 := by
    rw [← BitVec.toNat_inj, getDescriptor_toNat]
    exact Iff.rfl
  have h2 : w &&& 0xFF = 0 ↔ w.toNat % 2 ^ 8 = 0 := by
    rw [← BitVec.toNat_inj, BitVec.toNat_and]
    show w.toNat &&& (2 ^ 8 - 1) = 0 ↔ _
    rw [Nat.and_two_pow_sub_one_eq_mod]
  simp only [isBooleanFalse, asBoolean, Bool.and_eq_true, beq_iff_eq, Bool.not_eq_true', bne_eq_false_iff_eq, h1, h2]

theorem is_false {m : Mem} {d : Ctx} {o : Opd} (h : Is m d o) : ∃ w, m.word d = some w ∧ (isBooleanFalse w = true ↔ false' o) := by
  obtain ⟨ok, hd, h⟩ := h
  cases o with
  | atom w =>
    refine ⟨w, h, (false_iff w).trans ⟨fun e => ⟨w, rfl, e⟩, ?_⟩⟩
    rintro ⟨w', e, h'⟩
    cases e
    exact h'
  | flat g ws =>
    obtain ⟨h1, _⟩ := is_word h
    refine ⟨g, h1, (false_iff g).trans ⟨fun e => ?_, ?_⟩⟩
    · have : 0xC0 ≤ (getDescriptor g).toNat := desc_struct (n := ws.length) (by rcases ok with ok | ok; exact .inr ok; exact .inl ok.1)
      rw [getDescriptor_toNat] at this
      omega
    · rintro ⟨w', e, _⟩
      cases e

theorem guard_ready {L : Lang} {s s' : St} {i : Nat} {o : Opd} (h : CellOk L s i s') (r : Ready L s' i o) :
    ∃ b, Ev (fun N => guard L N s i) (s', b) ∧ (b = true ↔ ¬ false' o) := by
  obtain ⟨a, ha⟩ := h.member
  obtain ⟨d, ⟨b, hb⟩, h2, _⟩ := r
  obtain ⟨w, hw, hf⟩ := is_false h2
  refine ⟨!isBooleanFalse w, ⟨max a b, fun N hN => ?_⟩, by rw [← hf]; cases isBooleanFalse w <;> simp⟩
  have e1 : evaluate L N s i = some (s', true) := ha N (by omega)
  have e2 := hb N (by omega)
  simp only [guard, e1, e2, hw, Option.map_some]

theorem guard_no {L : Lang} {s s' : St} {i : Nat} (h : CellNo L s i s') : Ev (fun N => guard L N s i) (s', false) := by
  obtain ⟨a, ha⟩ := h.member
  refine ⟨a, fun N hN => ?_⟩
  have e1 : evaluate L N s i = some (s', false) := ha N (by omega)
  simp only [guard, e1]

theorem guards_loop {L : Lang} {m : Mem} (ht : m.tidy) (ha : apart m) : ∀ {n i k : Nat} {r : Option (List Opd)}, Sem L m (.cells i n) k r →
    ∀ s, Inv L m s → s.nv + k ≤ 4096 → ∃ s' b, Ev (fun N => loop (guard L N) i n s) (s', b) ∧ (b = true ↔ Pass r) := by
  intro n
  induction n with
  | zero =>
    intro i k r h s hs hn
    cases h
    exact ⟨s, true, Ev.const fun N => rfl, by simp [Pass]⟩
  | succ n ih =>
    intro i k r h s hs hn
    cases h with
    | @cons _ _ k l o vs h1 h2 =>
      obtain ⟨s1, o', e, g1, g2, _, g4, g5⟩ := sem_good ht ha h1 s hs (by omega)
      cases e
      obtain ⟨b, g6, g7⟩ := guard_ready g1 (g5.ready ht (g2.keep ha))
      cases b with
      | false =>
        refine ⟨s1, false, loop_stop g6, ?_⟩
        constructor
        · intro e; cases e
        · rintro ⟨vs', e, hv⟩
          cases e
          exact g7.mpr (hv o List.mem_cons_self)
      | true =>
        obtain ⟨s2, b, g8, g9⟩ := ih h2 s1 g2 (by omega)
        refine ⟨s2, b, loop_step g6 g8, g9.trans ⟨?_, ?_⟩⟩
        · rintro ⟨vs', e, hv⟩
          cases e
          refine ⟨_, rfl, fun x hx => ?_⟩
          rcases List.mem_cons.mp hx with rfl | hx
          · exact g7.mp rfl
          · exact hv x hx
        · rintro ⟨vs', e, hv⟩
          cases e
          exact ⟨_, rfl, fun x hx => hv x (List.mem_cons_of_mem _ hx)⟩
    | fails h1 =>
      obtain ⟨s1, g1⟩ := sem_good ht ha h1 s hs hn
      refine ⟨s1, false, loop_stop (guard_no g1), ?_⟩
      constructor
      · intro e; cases e
      · rintro ⟨vs', e, hv⟩; cases e
    | @fails' _ _ k l o h1 h2 =>
      obtain ⟨s1, o', e, g1, g2, _, g4, g5⟩ := sem_good ht ha h1 s hs (by omega)
      cases e
      obtain ⟨b, g6, g7⟩ := guard_ready g1 (g5.ready ht (g2.keep ha))
      cases b with
      | false =>
        refine ⟨s1, false, loop_stop g6, ?_⟩
        constructor
        · intro e; cases e
        · rintro ⟨vs', e, hv⟩; cases e
      | true =>
        obtain ⟨s2, b, g8, g9⟩ := ih h2 s1 g2 (by omega)
        exact ⟨s2, b, loop_step g6 g8, g9⟩

/-- C164, for the programs of C163. -/
theorem C164_program_partial (L : Lang) (s : St) (hs : Sized s) (ht : s.m.tidy) (ha : apart s.m) (g k : Nat) (hn : s.nv + k ≤ 4096)
    (r : Option (List Opd)) (h : Guards L s.m g k r) : ∃ n, ∀ N ≥ n, ∃ s' b, checkGuards L N s g = some (s', b) ∧ (b = true ↔ Pass r) := by
  obtain ⟨w, n, h1, _, h3, h4⟩ := h
  obtain ⟨s', b, ⟨a, g1⟩, g2⟩ := guards_loop ht ha h4 s (inv_start L hs) hn
  refine ⟨a, fun N hN => ⟨s', b, ?_, g2⟩⟩
  have e := g1 N hN
  simp only [checkGuards, h1, kind_struct_count (.inl h3), e]

/-- What guards let through that test whether they are evaluated, but not what they are worth. -/
def Lax (r : Option (List Opd)) (b : Bool) : Prop :=
  (b = true ↔ r.isSome = true) ∧ ((∀ vs, r = some vs → ∀ o ∈ vs, ¬ false' o) → (b = true ↔ Pass r))

theorem lax_none : Lax none false := ⟨by simp, fun _ => by simp [Pass]⟩
theorem lax_some (vs : List Opd) : Lax (some vs) true := ⟨by simp, fun h => by simpa [Pass] using h vs rfl⟩

/-- C165, for the programs of C163, and for guards of which none can be false. The guards of a pattern let
through whatever they are evaluated for, were it to false. -/
theorem C165_pattern_partial (L : Lang) (s : St) (hs : Sized s) (ht : s.m.tidy) (ha : apart s.m) (g k : Nat) (hn : s.nv + k ≤ 4096)
    (r : Option (List Opd)) (h : Guards L s.m g k r) :
    ∃ n, ∀ N ≥ n, (∃ s' b, patternGuards L N s g = some (s', b) ∧ Lax r b) ∧ ∃ s' b, redGuards L N s g = some (s', b) ∧ Lax r b := by
  obtain ⟨w, n, h1, h2, h3, h4⟩ := h
  have hd : (getDescriptor w).toNat = 0xC1 := by rw [getDescriptor_toNat]; exact h2
  have hsk : skipped L w = false := by
    have e1 : getDescriptor w = 0xC1 := BitVec.eq_of_toNat_eq hd
    simp [skipped, e1]
  have hdf : ∀ s' : St, s'.m.word ⟨.stem, g⟩ = some w → ∀ N, derefE L (N + 2) s' g = some (s', some ⟨.stem, g⟩) := by
    intro s' hw N
    have : s'.m.at ⟨.stem, g⟩ = some (.struct n) := by rw [Mem.at, hw, Option.map_some, h3]
    simp [derefE, this, deref]
  have hf : isBooleanFalse w = false := by
    have := false_iff w
    rw [h2] at this
    simpa using this
  have hg := sem_good ht ha h4 s (inv_start L hs) hn
  have key : ∀ s' b, (b = true → Inv L s.m s') → Ev (fun N => loop (member (derefE L N) (evalE L N)) (g + 1) n s) (s', b) →
      ∃ k, ∀ N ≥ k, patternGuards L N s g = some (s', b) ∧ redGuards L N s g = some (s', b) := by
    rintro s' b hb ⟨a, hl⟩
    refine ⟨a + 2, fun N hN => ?_⟩
    have er : redGuards L N s g = some (s', b) := by
      have e := hl N (by omega)
      simp only [redGuards, h1, kind_struct_count (.inl h3), e]
    refine ⟨?_, er⟩
    obtain ⟨N, rfl⟩ : ∃ k, N = k + 2 := ⟨N - 2, by omega⟩
    have e := hl (N + 1) (by omega)
    have e1 : ∀ M, loop (member (derefE L M) (evalE L M)) (g + 1) n s = some (s', b) → evalE L (M + 1) s g = some (s', b) := by
      intro M e
      simp only [evalE, h1, h3, hsk, e, Bool.false_eq_true, if_false]
    have e1 := e1 (N + 1) e
    have e2 : evaluate L (N + 2) s g = some (s', b) := by simp only [evaluate, member, hdf s h1 N, e1, if_true]
    cases b with
    | false => simp only [patternGuards, guard, e2]
    | true =>
      have hw : s'.m.word ⟨.stem, g⟩ = some w := ((hb rfl).keep ha).word _ w h1 (by rw [h3]; exact fun e => by cases e)
      simp only [patternGuards, guard, e2, hdf s' hw N, hw, Option.map_some, hf]
      rfl
  cases r with
  | none =>
    obtain ⟨s', g1⟩ := hg
    obtain ⟨a, g2⟩ := key s' false (fun e => by cases e) g1
    exact ⟨a, fun N hN => ⟨⟨s', false, (g2 N hN).1, lax_none⟩, s', false, (g2 N hN).2, lax_none⟩⟩
  | some vs =>
    obtain ⟨s', g1, g2, _⟩ := hg
    obtain ⟨a, g3⟩ := key s' true (fun _ => g2) g1
    exact ⟨a, fun N hN => ⟨⟨s', true, (g3 N hN).1, lax_some vs⟩, s', true, (g3 N hN).2, lax_some vs⟩⟩

/-! ## Examples -/

def codeMem (l : List Word) (n : Nat) : Mem :=
  ⟨fun _ => ⟨fun _ => none, []⟩, fun i => l[i]?, fun i => if i < n then some 0#32 else none, 0, 1, [], []⟩

/-- Opcode 1 adds, 2 compares, 3 gives a timestamp; 2 has an overload that says true of anything, 4 says
whether the timestamp is that of 3. -/
def demo : Lang where
  syn _ := false
  red _ := false
  ptn _ := false
  std o vs :=
    match o, vs with
    | 1, [.atom a, .atom b] => .ok (.atom (a + b))
    | 2, [.atom a, .atom b] => .ok (.atom (boolean (decide (a.toNat < b.toNat))))
    | 3, [] => .ok (.flat 0xC7000000#32 [0#32, 5#32])
    | 4, [o] => .ok (.atom (boolean (decide (o = .flat 0xC7000000#32 [0#32, 5#32]))))
    | _, _ => .fail (some 0x80000000#32)
  over o := if o = 2 then some fun _ => .ok (.atom (boolean true)) else none

/-- `[(< x:(+ 1 2) 5) (< x (now))]`: the second comparison is that of the overload. -/
def prog : St := ⟨codeMem [0xC1000002#32, 0x84000003#32, 0x84000009#32, 0xC5000202#32, 0x84000006#32, 5#32, 0xC5000102#32, 1#32, 2#32,
  0xC5000202#32, 0x8E000004#32, 0x8400000C#32, 0xC5000300#32] 0, 0⟩

/-- `[(< 2 1)]`. -/
def prog' : St := ⟨codeMem [0xC1000001#32, 0x84000002#32, 0xC5000202#32, 2#32, 1#32] 0, 0⟩

theorem sized_code (l : List Word) (n : Nat) : Sized ⟨codeMem l n, n⟩ := fun i hi => if_neg (by show ¬ i < n; exact Nat.not_lt.mpr hi)

theorem at_code {l : List Word} {n i : Nat} {x : Kind} (h : (codeMem l n).at ⟨.stem, i⟩ = some x) : x ∈ l.map kind := by
  have h : (l[i]?).map kind = some x := h
  rw [Option.map_eq_some_iff] at h
  obtain ⟨w, h1, rfl⟩ := h
  exact List.mem_map_of_mem (List.mem_of_getElem? h1)

theorem code_apart {l : List Word} {n : Nat} (h : ∀ x ∈ l.map kind, (∀ k, x ≠ .raw k) ∧ ∀ k, x ≠ .cptr k) : apart (codeMem l n) := by
  intro i j k hi _
  rcases hi with hi | hi
  · exact absurd rfl ((h _ (at_code hi)).1 k)
  · exact absurd rfl ((h _ (at_code hi)).2 k)

theorem code_tidy {l : List Word} {n : Nat} (h : ∀ x ∈ l.map kind, (∀ k, x ≠ .cptr k) ∧ ∀ k, x = .codevl k → ∃ j, (codeMem l n).at ⟨.stem, k⟩ = some (.iptr j)) :
    (codeMem l n).tidy := by
  intro c k hc
  obtain ⟨sp, i⟩ := c
  cases sp with
  | stem =>
    obtain ⟨j, hj⟩ := (h _ (at_code hc)).2 k rfl
    refine ⟨fun a => by rw [hj]; exact ⟨(fun e => by cases e), (fun e => by cases e), (fun e => by cases e)⟩, fun a b _ e => ?_⟩
    exact (h _ (at_code e)).1 b rfl
  | val =>
    have hc : Option.map kind (if i < n then some 0#32 else none) = some (.codevl k) := hc
    split at hc
    · exact absurd hc (by rw [Option.map_some]; rw [show kind 0#32 = .atom by decide]; exact fun e => by cases e)
    · cases hc
  | obj o => cases hc

theorem value_here {l : List Word} {n i : Nat} {w : Word} (h : l[i]? = some w) (hk : kind w = .atom) {L : Lang} : Sem L (codeMem l n) (.cell i) 0 (some [.atom w]) := by
  have h' : (codeMem l n).word ⟨.stem, i⟩ = some w := h
  exact .value (.here ⟨.atom, by rw [Mem.at, h', Option.map_some, hk], rfl⟩) ⟨.inl hk, rfl, h'⟩

theorem prog_add : Sem demo prog.m (.expr 6) 0 (some [.atom 3#32]) :=
  .op (k := 0) (w := 0xC5000102#32) (vs := [.atom 1#32, .atom 2#32]) (o := .atom 3#32) rfl (by decide) rfl rfl
    (.cons (value_here rfl (by decide)) (.cons (value_here rfl (by decide)) .nil)) (.inl rfl) (Or.inl (by decide))

theorem prog_first : Sem demo prog.m (.cell 1) 0 (some [.atom (boolean true)]) :=
  .ptr (j := 3) (by decide) (by decide) (.op (k := 0) (w := 0xC5000202#32) (vs := [.atom 3#32, .atom 5#32]) rfl (by decide) rfl rfl
    (.cons (.ptr (j := 6) (by decide) (by decide) prog_add) (.cons (value_here rfl (by decide)) .nil)) (.inl rfl) (Or.inl (by decide)))

theorem prog_now : Sem demo prog.m (.cell 11) 3 (some [.flat 0xC7000000#32 [0#32, 5#32]]) :=
  .ptr (j := 12) (by decide) (by decide) (.op (k := 0) (w := 0xC5000300#32) (vs := []) (o := .flat 0xC7000000#32 [0#32, 5#32]) rfl (by decide) rfl rfl .nil (.inl rfl) (Or.inl (by decide)))

theorem prog_second : Sem demo prog.m (.cell 2) 3 (some [.atom (boolean true)]) :=
  .ptr (j := 9) (by decide) (by decide) (.op (k := 3) (w := 0xC5000202#32) (vs := [.atom 3#32, .flat 0xC7000000#32 [0#32, 5#32]]) rfl (by decide) rfl rfl
    (.cons (k := 0) (l := 3) (.var (v := 4) (j := 6) (by decide) (by decide) (by decide) prog_add) (.cons (k := 3) (l := 0) prog_now .nil))
    (.inr ⟨_, _, rfl, rfl, rfl⟩) (Or.inl (by decide)))

theorem prog_guards : Guards demo prog.m 0 3 (some [.atom (boolean true), .atom (boolean true)]) :=
  ⟨0xC1000002#32, 2, rfl, by decide, by decide, .cons (k := 0) (l := 3) prog_first (.cons (k := 3) (l := 0) prog_second .nil)⟩

theorem prog_tidy : prog.m.tidy := code_tidy (fun x hx => by
  have : x ∈ [Kind.struct 2, .iptr 3, .iptr 9, .op, .iptr 6, .atom, .op, .atom, .atom, .op, .codevl 4, .iptr 12, .op] := by
    have e : ([0xC1000002#32, 0x84000003#32, 0x84000009#32, 0xC5000202#32, 0x84000006#32, 5#32, 0xC5000102#32, 1#32, 2#32,
      0xC5000202#32, 0x8E000004#32, 0x8400000C#32, 0xC5000300#32] : List Word).map kind =
      [Kind.struct 2, .iptr 3, .iptr 9, .op, .iptr 6, .atom, .op, .atom, .atom, .op, .codevl 4, .iptr 12, .op] := by decide
    rw [← e]
    exact hx
  refine ⟨fun k e => ?_, fun k e => ?_⟩
  · subst e; simp at this
  · subst e
    have e : k = 4 := by simpa using this
    subst e
    exact ⟨6, by decide⟩)

theorem prog_apart : apart prog.m := code_apart (fun x hx => by
  have : x ∈ [Kind.struct 2, .iptr 3, .iptr 9, .op, .iptr 6, .atom, .op, .atom, .atom, .op, .codevl 4, .iptr 12, .op] := by
    have e : ([0xC1000002#32, 0x84000003#32, 0x84000009#32, 0xC5000202#32, 0x84000006#32, 5#32, 0xC5000102#32, 1#32, 2#32,
      0xC5000202#32, 0x8E000004#32, 0x8400000C#32, 0xC5000300#32] : List Word).map kind =
      [Kind.struct 2, .iptr 3, .iptr 9, .op, .iptr 6, .atom, .op, .atom, .atom, .op, .codevl 4, .iptr 12, .op] := by decide
    rw [← e]
    exact hx
  exact ⟨fun k e => by subst e; simp at this, fun k e => by subst e; simp at this⟩)

theorem kinds' : ([0xC1000001#32, 0x84000002#32, 0xC5000202#32, 2#32, 1#32] : List Word).map kind = [Kind.struct 1, .iptr 2, .op, .atom, .atom] := by decide

theorem prog_tidy' : prog'.m.tidy := code_tidy (fun x hx => by
  rw [kinds'] at hx
  exact ⟨fun k e => by subst e; simp at hx, fun k e => by subst e; simp at hx⟩)

theorem prog_apart' : apart prog'.m := code_apart (fun x hx => by
  rw [kinds'] at hx
  exact ⟨fun k e => by subst e; simp at hx, fun k e => by subst e; simp at hx⟩)

theorem prog_guards' : Guards demo prog'.m 0 0 (some [.atom (boolean false)]) :=
  ⟨0xC1000001#32, 1, rfl, by decide, by decide, .cons (k := 0) (l := 0) (.ptr (j := 2) (by decide) (by decide)
    (.op (k := 0) (w := 0xC5000202#32) (vs := [.atom 2#32, .atom 1#32]) (o := .atom (boolean false)) rfl (by decide) rfl rfl
    (.cons (value_here rfl (by decide)) (.cons (value_here rfl (by decide)) .nil)) (.inl rfl) (Or.inl (by decide)))) .nil⟩

theorem C163_nonvacuous : Sized prog ∧ prog.m.tidy ∧ apart prog.m ∧ Sem demo prog.m (.cell 2) 3 (some [.atom (boolean true)]) ∧
    (∃ n, ∀ N ≥ n, ∃ s', evaluate demo N prog 2 = some (s', true) ∧ Evaluated demo N s' 2 (.atom (boolean true)) ∧ Kept prog.m s') :=
  ⟨sized_code _ 0, prog_tidy, prog_apart, prog_second,
    (C163_value_partial demo prog (sized_code _ 0) prog_tidy prog_apart 2 3 (by decide)).1 _ prog_second⟩

theorem boolean_pass : ¬ false' (.atom (boolean true)) := by
  rintro ⟨w, e, _, h⟩
  cases e
  exact absurd h (by decide)

theorem boolean_false : false' (.atom (boolean false)) := ⟨_, rfl, by decide, by decide⟩

theorem C164_nonvacuous : Guards demo prog.m 0 3 (some [.atom (boolean true), .atom (boolean true)]) ∧
    Guards demo prog'.m 0 0 (some [.atom (boolean false)]) ∧
    (∃ n, ∀ N ≥ n, ∃ s', checkGuards demo N prog 0 = some (s', true)) ∧ (∃ n, ∀ N ≥ n, ∃ s', checkGuards demo N prog' 0 = some (s', false)) := by
  refine ⟨prog_guards, prog_guards', ?_, ?_⟩
  · obtain ⟨n, hn⟩ := C164_program_partial demo prog (sized_code _ 0) prog_tidy prog_apart 0 3 (by decide) _ prog_guards
    refine ⟨n, fun N hN => ?_⟩
    obtain ⟨s', b, h1, h2⟩ := hn N hN
    refine ⟨s', ?_⟩
    rw [h1, h2.mpr ⟨_, rfl, fun o ho => ?_⟩]
    have : o = .atom (boolean true) := by simpa using ho
    rw [this]
    exact boolean_pass
  · obtain ⟨n, hn⟩ := C164_program_partial demo prog' (sized_code _ 0) prog_tidy' prog_apart' 0 0 (by decide) _ prog_guards'
    refine ⟨n, fun N hN => ?_⟩
    obtain ⟨s', b, h1, h2⟩ := hn N hN
    refine ⟨s', ?_⟩
    rw [h1]
    cases b with
    | false => rfl
    | true =>
      obtain ⟨vs, e, h⟩ := h2.mp rfl
      cases e
      exact absurd boolean_false (h _ List.mem_cons_self)

theorem C165_nonvacuous : Guards demo prog.m 0 3 (some [.atom (boolean true), .atom (boolean true)]) ∧
    (∃ n, ∀ N ≥ n, (∃ s', patternGuards demo N prog 0 = some (s', true)) ∧ ∃ s', redGuards demo N prog 0 = some (s', true)) := by
  refine ⟨prog_guards, ?_⟩
  obtain ⟨n, hn⟩ := C165_pattern_partial demo prog (sized_code _ 0) prog_tidy prog_apart 0 3 (by decide) _ prog_guards
  refine ⟨n, fun N hN => ?_⟩
  obtain ⟨⟨s', b, h1, h2, _⟩, t', c, g1, g2, _⟩ := hn N hN
  exact ⟨⟨s', by rw [h1, h2.mpr rfl]⟩, t', by rw [g1, g2.mpr rfl]⟩

/-- C165 is violated: `[(< 2 1)]` as the guards of a pattern lets every input through, although the guards of a
program reject it. The whole set is evaluated, then the head of the set is tested for being false. In red,
nothing is tested. -/
theorem C165_pattern_violated : ¬ C165_full ∧
    (∃ n, ∀ N ≥ n, (∃ s', patternGuards demo N prog' 0 = some (s', true)) ∧ ∃ s', redGuards demo N prog' 0 = some (s', true)) ∧
    ∃ n, ∀ N ≥ n, ∃ s', checkGuards demo N prog' 0 = some (s', false) := by
  have h : ∃ n, ∀ N ≥ n, (∃ s', patternGuards demo N prog' 0 = some (s', true)) ∧ ∃ s', redGuards demo N prog' 0 = some (s', true) := by
    obtain ⟨n, hn⟩ := C165_pattern_partial demo prog' (sized_code _ 0) prog_tidy' prog_apart' 0 0 (by decide) _ prog_guards'
    refine ⟨n, fun N hN => ?_⟩
    obtain ⟨⟨s', b, h1, h2, _⟩, t', c, g1, g2, _⟩ := hn N hN
    exact ⟨⟨s', by rw [h1, h2.mpr rfl]⟩, t', by rw [g1, g2.mpr rfl]⟩
  refine ⟨fun hf => ?_, h, C164_nonvacuous.2.2.2⟩
  obtain ⟨n, hn⟩ := h
  obtain ⟨n', hn'⟩ := hf demo prog' (sized_code _ 0) 0 0 _ prog_guards'
  obtain ⟨⟨s1, h1⟩, _⟩ := hn (max n n') (by omega)
  obtain ⟨⟨s2, b, h2, h3⟩, _⟩ := hn' (max n n') (by omega)
  rw [h1] at h2
  cases h2
  obtain ⟨vs, e, h⟩ := h3.mp rfl
  cases e
  exact absurd boolean_false (h _ List.mem_cons_self)

/-- `[(= (now) the same)]` when there are 4096 words of results already. -/
def late : St := ⟨codeMem [0xC1000001#32, 0x84000002#32, 0xC5000401#32, 0x84000004#32, 0xC5000300#32] 4096, 4096⟩

theorem late_now : Sem demo late.m (.cell 3) 3 (some [.flat 0xC7000000#32 [0#32, 5#32]]) :=
  .ptr (j := 4) (by decide) (by decide) (.op (k := 0) (w := 0xC5000300#32) (vs := []) (o := .flat 0xC7000000#32 [0#32, 5#32]) rfl (by decide) rfl rfl .nil (.inl rfl) (Or.inl (by decide)))

theorem late_guards : Guards demo late.m 0 3 (some [.atom (boolean true)]) :=
  ⟨0xC1000001#32, 1, rfl, by decide, by decide, .cons (k := 3) (l := 0) (.ptr (j := 2) (by decide) (by decide)
    (.op (k := 3) (w := 0xC5000401#32) (vs := [.flat 0xC7000000#32 [0#32, 5#32]]) rfl (by decide) rfl rfl (.cons (k := 3) (l := 0) late_now .nil) (.inl rfl) (Or.inl (by decide)))) .nil⟩

theorem late_value (N : Nat) : ∃ s', evaluate demo (N + 9) late 3 = some (s', true) ∧ derefE demo (N + 9) s' 3 = some (s', some ⟨.val, 0⟩) ∧
    s'.m.word ⟨.val, 0⟩ = some 0#32 :=
  ⟨late.put 4 (.flat 0xC7000000#32 [0#32, 5#32]), rfl, rfl, rfl⟩

theorem late_false (N : Nat) : ∃ s', checkGuards demo (N + 9) late 0 = some (s', false) :=
  ⟨(late.put 4 (.flat 0xC7000000#32 [0#32, 5#32])).put 2 (.atom (boolean false)), rfl⟩

/-- C163 is violated: pointers to results have twelve bits. Once an overlay holds 4096 words of results, a
timestamp that is computed is taken for the first of them. -/
theorem C163_value_violated : ¬ C163_full ∧ Sem demo late.m (.cell 3) 3 (some [.flat 0xC7000000#32 [0#32, 5#32]]) ∧
    ∀ N, ∃ s', evaluate demo (N + 9) late 3 = some (s', true) ∧ derefE demo (N + 9) s' 3 = some (s', some ⟨.val, 0⟩) ∧ s'.m.word ⟨.val, 0⟩ = some 0#32 := by
  refine ⟨fun hf => ?_, late_now, late_value⟩
  obtain ⟨n, hn⟩ := (hf demo late (sized_code _ 4096) 3 3).1 _ late_now
  obtain ⟨s1, h1, ⟨⟨d, h2, h3⟩, _⟩, _⟩ := hn (n + 9) (by omega)
  obtain ⟨s2, g1, g2, g3⟩ := late_value n
  rw [g1] at h1
  cases h1
  rw [g2] at h2
  cases h2
  obtain ⟨_, _, h3⟩ := h3
  obtain ⟨h3, _⟩ := is_word h3
  rw [g3] at h3
  exact absurd (Option.some.inj h3) (by decide)

/-- C164 is violated likewise. -/
theorem C164_program_violated : ¬ C164_full ∧ Guards demo late.m 0 3 (some [.atom (boolean true)]) ∧
    ∀ N, ∃ s', checkGuards demo (N + 9) late 0 = some (s', false) := by
  refine ⟨fun hf => ?_, late_guards, late_false⟩
  obtain ⟨n, hn⟩ := hf demo late (sized_code _ 4096) 0 3 _ late_guards
  obtain ⟨s1, b, h1, h2⟩ := hn (n + 9) (by omega)
  obtain ⟨s2, g1⟩ := late_false n
  rw [g1] at h1
  cases h1
  have : false = true := h2.mpr ⟨_, rfl, fun o ho => by
    have : o = .atom (boolean true) := by simpa using ho
    rw [this]
    exact boolean_pass⟩
  cases this

end Verif.Eval
