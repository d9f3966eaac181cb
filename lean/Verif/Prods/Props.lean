import Verif.Prods.Lemmas
/-!
# What a program does: C141 to C143
-/
namespace Verif.Prods

/-- What the notification says, for a program that has been carried out. -/
def note (p : Pgm) (c : Clock) : List Ev :=
  notify p (start p (p.prods.map (·.cmd.cnt)).sum).2
    { evs := [], k := 0
      draft := (if p.ntf.length ≠ 0 && (p.prods.map (·.cmd.cnt)).sum ≠ 0 && p.nfr then
        some (start p (p.prods.map (·.cmd.cnt)).sum).1 else none).map (drafted c p.prods)
      count := (p.prods.map (·.cmd.cnt)).sum - (p.prods.map (·.cmd.bare)).sum }

theorem notify_eq {p : Pgm} {a : Nat} {s s' : S2} (h1 : s.draft = s'.draft) (h2 : s.count = s'.count) : notify p a s = notify p a s' := by
  simp [notify, h1, h2]

theorem first_inv {p : Pgm} {s1 : S1} (h : first p p.prods ⟨[], 0⟩ = .ok s1) :
    s1 = ⟨p.prods.flatMap (·.cmd.objs), (p.prods.map (·.cmd.cnt)).sum⟩ := by
  have := first_ok (p := p) p.prods (fun hr => first_evals _ _ _ h hr) (first_fits _ _ _ h) ⟨[], 0⟩
  rw [this] at h
  cases h
  simp

/-- A program that can be computed and carried out. -/
theorem run_ok {p : Pgm} {c : Clock} (hred : p.red ≠ some false) (hok : p.red.isNone = true → ∀ q ∈ p.prods, q.ok = true)
    (hfit : p.fits) (hf : ∀ q ∈ p.prods, q.cmd.feasible = true) :
    injectProductions p c = .ret true (doneAll p c (p.prods.flatMap (·.cmd.objs)) 0 p.prods ++ note p c) := by
  unfold injectProductions
  rw [if_neg hred, first_ok p.prods hok hfit]
  simp only [List.nil_append, Nat.zero_add]
  rw [second_feasible p.prods _ hf]
  simp only [if_true, List.nil_append]
  congr 1

/-- A program that returns true has been computed and carried out. -/
theorem run_true {p : Pgm} {c : Clock} {evs : List Ev} (h : injectProductions p c = .ret true evs) :
    p.red ≠ some false ∧ (p.red.isNone = true → ∀ q ∈ p.prods, q.ok = true) ∧ p.fits ∧ ∀ q ∈ p.prods, q.cmd.feasible = true := by
  unfold injectProductions at h
  by_cases hred : p.red = some false
  · rw [if_pos hred] at h; cases h
  · rw [if_neg hred] at h
    cases h1 : first p p.prods ⟨[], 0⟩ with
    | ub => rw [h1] at h; cases h
    | fail => rw [h1] at h; cases h
    | ok s1 =>
      rw [h1] at h
      refine ⟨hred, first_evals _ _ _ h1, first_fits _ _ _ h1, ?_⟩
      by_contra hn
      push Not at hn
      obtain ⟨q, hq, hqf⟩ := hn
      simp only [ne_eq, Bool.not_eq_true] at hqf
      have hex : ∃ a q b, p.prods = a ++ q :: b ∧ (∀ x ∈ a, x.cmd.feasible = true) ∧ q.cmd.feasible = false := by
        clear h h1
        generalize p.prods = l at hq
        induction l with
        | nil => simp at hq
        | cons x l ih =>
          cases hx : x.cmd.feasible with
          | false => exact ⟨[], x, l, rfl, by simp, hx⟩
          | true =>
            rcases List.mem_cons.mp hq with rfl | hq
            · rw [hx] at hqf; cases hqf
            · obtain ⟨a, y, b, rfl, h1, h2⟩ := ih hq
              exact ⟨x :: a, y, b, rfl, fun z hz => by rcases List.mem_cons.mp hz with rfl | hz; exacts [hx, h1 z hz], h2⟩
      obtain ⟨a, y, b, he, ha, hy⟩ := hex
      simp only at h
      rw [he, (second_infeasible a y b _ ha hy).1] at h
      simp at h

theorem done_notNote (p : Pgm) (c : Clock) (prods : List Nat) (k : Nat) (cmd : Cmd) : ∀ e ∈ done p c prods k cmd, e.isNote = false := by
  intro e he
  cases cmd with
  | inject a v => cases v <;> simp [done, wanted] at he; subst he; rfl
  | eject a v n => simp [done] at he; subst he; rfl
  | mod t m v => cases t <;> simp [done, wanted, wantedChange] at he <;> subst he <;> rfl
  | set t m v => cases t <;> simp [done, wanted, wantedChange] at he <;> subst he <;> rfl
  | prb heard m => cases heard <;> simp [done, wanted] at he; subst he; rfl
  | device d o => cases o <;> simp [done, wanted] at he <;> (try rcases he with rfl | rfl) <;> (try subst he) <;> rfl
  | stop => simp [done, wanted] at he; subst he; rfl
  | _ => simp [done, wanted] at he

theorem doneAll_notNote (p : Pgm) (c : Clock) (prods : List Nat) (k : Nat) (qs : List Prod) :
    ∀ e ∈ doneAll p c prods k qs, e.isNote = false := by
  induction qs generalizing k with
  | nil => simp [doneAll]
  | cons q qs ih =>
    intro e he
    rcases List.mem_append.mp he with he | he
    · exact done_notNote _ _ _ _ _ e he
    · exact ih _ e he

theorem note_isNote (p : Pgm) (c : Clock) : ∀ e ∈ note p c, e.isNote = true := by
  intro e he
  unfold note notify at he
  split at he
  · simp at he
  · obtain ⟨g, _, rfl⟩ := List.mem_map.mp he
    rfl

theorem effects_run (p : Pgm) (c : Clock) (prods : List Nat) : effects (doneAll p c prods 0 p.prods ++ note p c) = doneAll p c prods 0 p.prods := by
  unfold effects
  rw [List.filter_append, List.filter_eq_self.mpr (fun e he => by simp [doneAll_notNote _ _ _ _ _ e he]),
    List.filter_eq_nil_iff.mpr (fun e he => by simp [note_isNote _ _ e he]), List.append_nil]

theorem notes_run (p : Pgm) (c : Clock) (prods : List Nat) : notes (doneAll p c prods 0 p.prods ++ note p c) = notes (note p c) := by
  unfold notes
  rw [List.filterMap_append, List.filterMap_eq_nil_iff.mpr, List.nil_append]
  intro e he
  have := doneAll_notNote _ _ _ _ _ e he
  cases e <;> simp_all [Ev.isNote]

/-! ## C141 -/

def plainCopy : Nat → List Ref → List Cell × List Ref := fun _ _ => ([.word 7], [])

/-- A program that injects an object, then asks for a function the executive does not have. -/
def half : Pgm :=
  { ipgm := 1, pgm := 2, host := 3, stdin := 4, inputs := [], ntf := [5], nfr := true, red := none, codeSize := 100
    prods := [⟨.inject (.build 10 40) (some 11), true, plainCopy⟩, ⟨.unknown, true, plainCopy⟩] }

/-- A program whose productions come from red, with an object built. -/
def viaRed : Pgm :=
  { half with red := some true, prods := [⟨.inject (.build 10 40) (some 11), true, plainCopy⟩] }

/-- C141 fails: a program with a function the executive does not have does what comes before it, and then
returns false; one that builds its objects with red injects itself instead; and it may write outside its
code. -/
theorem C141_all_violated : ¬ C141_full ∧
    injectProductions half ⟨100, 0, 50, 10⟩ = .ret false [.inject 10 11 3] ∧
    (∃ n, injectProductions viaRed ⟨100, 0, 50, 10⟩ = .ret true ([.inject 2 11 3] ++ n) ∧ ∀ e ∈ n, e.isNote = true) ∧
    injectProductions { viaRed with codeSize := 30 } ⟨100, 0, 50, 10⟩ = .ub := by
  have h1 : injectProductions half ⟨100, 0, 50, 10⟩ = .ret false [.inject 10 11 3] := rfl
  refine ⟨fun h => ?_, h1, ?_, rfl⟩
  · obtain ⟨ok, evs, he, _, _, h3⟩ := h half ⟨100, 0, 50, 10⟩
    rw [h1] at he
    cases he
    exact absurd (h3 rfl) (by simp)
  · refine ⟨note viaRed ⟨100, 0, 50, 10⟩, ?_, note_isNote _ _⟩
    exact run_ok (by decide) (by decide) (by
      intro q hq o i hi
      simp only [viaRed, List.mem_singleton] at hq
      subst hq
      cases hi
      decide) (by
      intro q hq
      simp only [viaRed, List.mem_singleton] at hq
      subst hq
      rfl)

/-- C141 in part: programs that do not build objects with red, and whose commands can all be carried out, do
all of their commands in order, or nothing. What is missing: commands that cannot be carried out, which
are found out too late; objects built with red. -/
theorem C141_all_partial (p : Pgm) (c : Clock) (hplain : p.plain) (hfit : p.fits)
    (hf : ∀ q ∈ p.prods, q.cmd.feasible = true) :
    ∃ ok evs, injectProductions p c = .ret ok evs ∧ (ok = true ↔ p.computes) ∧
      (ok = true → effects evs = p.prods.flatMap fun q => wanted p c q.cmd) ∧ (ok = false → evs = []) := by
  by_cases hc : p.computes
  · have h1 : p.red ≠ some false := by rcases hc with h | ⟨h, _⟩ <;> rw [h] <;> simp
    have h2 : p.red.isNone = true → ∀ q ∈ p.prods, q.ok = true := by
      rcases hc with h | ⟨_, h⟩
      · rw [h]; simp
      · exact fun _ => h
    refine ⟨true, _, run_ok h1 h2 hfit hf, by simp [hc], fun _ => ?_, by simp⟩
    rw [effects_run]
    have := doneAll_wanted (c := c) p.prods [] [] hplain
    simpa using this
  · refine ⟨false, [], ?_, by simp [hc], by simp, by simp⟩
    unfold injectProductions
    by_cases hred : p.red = some false
    · rw [if_pos hred]
    · rw [if_neg hred]
      have hn : p.red = none := by
        cases hr : p.red with
        | none => rfl
        | some b => cases b <;> simp_all [Pgm.computes]
      cases h1 : first p p.prods ⟨[], 0⟩ with
      | fail => rfl
      | ok s1 => exact absurd (Or.inr ⟨hn, first_evals _ _ _ h1 (by rw [hn]; rfl)⟩) hc
      | ub =>
        exfalso
        have key : ∀ qs : List Prod, (∀ q ∈ qs, ∀ o i, q.cmd.arg = some (.build o i) → i < p.codeSize) → ∀ s, first p qs s ≠ .ub := by
          intro qs
          induction qs with
          | nil => intro _ s hs; cases hs
          | cons q qs ih =>
            intro hq s hs
            rw [first] at hs
            cases hk : q.ok with
            | false => rw [pass1_fail (by rw [hn]; rfl) hk] at hs; cases hs
            | true =>
              rw [pass1_ok (fun _ => hk) (hq q (by simp))] at hs
              exact ih (fun x hx => hq x (by simp [hx])) _ hs
        exact key p.prods hfit _ h1

/-- What is done before a command that cannot be carried out is not undone. -/
theorem C141_prefix (p : Pgm) (c : Clock) (a : List Prod) (q : Prod) (b : List Prod) (he : p.prods = a ++ q :: b)
    (hplain : p.plain) (hfit : p.fits) (hc : p.computes) (ha : ∀ x ∈ a, x.cmd.feasible = true) (hq : q.cmd.feasible = false) :
    injectProductions p c = .ret false (a.flatMap fun q => wanted p c q.cmd) := by
  have h1 : p.red ≠ some false := by rcases hc with h | ⟨h, _⟩ <;> rw [h] <;> simp
  have h2 : p.red.isNone = true → ∀ q ∈ p.prods, q.ok = true := by
    rcases hc with h | ⟨_, h⟩
    · rw [h]; simp
    · exact fun _ => h
  unfold injectProductions
  rw [if_neg h1, first_ok p.prods h2 hfit]
  simp only [List.nil_append, Nat.zero_add]
  rw [he, (second_infeasible a q b _ ha hq).1, (second_infeasible a q b _ ha hq).2]
  have := doneAll_wanted (p := p) (c := c) a [] ((q :: b).flatMap (·.cmd.objs))
    (hplain.imp id fun h x hx => h x (by rw [he]; simp [hx]))
  simp only [List.nil_append, List.length_nil] at this
  simp only [List.flatMap_append, List.nil_append, Bool.false_eq_true, if_false]
  rw [this]

/-- A program that does five things. -/
def busy : Pgm :=
  { half with
    prods :=
      [⟨.inject (.build 10 40) none, true, plainCopy⟩, ⟨.inject (.build 12 50) (some 11), true, plainCopy⟩,
       ⟨.mod (.view 3 77) 4 1, true, plainCopy⟩, ⟨.device 20 (some 21), true, plainCopy⟩, ⟨.device 22 none, true, plainCopy⟩]
    inputs := [30, 31] }

theorem C141_nonvacuous : busy.plain ∧ busy.fits ∧ busy.computes ∧ (∀ q ∈ busy.prods, q.cmd.feasible = true) ∧
    (busy.prods.flatMap fun q => wanted busy ⟨100, 0, 50, 10⟩ q.cmd) =
      [.inject 12 11 3, .pend false 3 77 4 1, .device 20, .fact ⟨21, 120, 150, false⟩ 4 3, .device 22] := by
  refine ⟨Or.inl rfl, ?_, Or.inr ⟨rfl, ?_⟩, ?_, rfl⟩
  · intro q hq o i hi
    simp only [busy, List.mem_cons, List.not_mem_nil, or_false] at hq
    rcases hq with rfl | rfl | rfl | rfl | rfl <;> simp [Cmd.arg] at hi <;> obtain ⟨rfl, rfl⟩ := hi <;> decide
  · intro q hq
    simp only [busy, List.mem_cons, List.not_mem_nil, or_false] at hq
    rcases hq with rfl | rfl | rfl | rfl | rfl <;> rfl
  · intro q hq
    simp only [busy, List.mem_cons, List.not_mem_nil, or_false] at hq
    rcases hq with rfl | rfl | rfl | rfl | rfl <;> rfl

/-! ## C142 -/

theorem start_inv (p : Pgm) (n : Nat) : DInv (getMkRdx p).1 (6 + p.inputs.length) n (start p n).1 [] := by
  refine ⟨rfl, Nat.le_refl _, fun j hj => poke_ne (Nat.ne_of_lt hj), List.prefix_refl _, by simp, fun i _ hi => ?_⟩
  show poke _ _ _ _ = _
  rw [poke_ne (by show _ ≠ 6 + p.inputs.length; omega)]
  show pokes (pokes _ _ _) _ _ _ = _
  rw [pokes_out _ (by simp; omega), pokes_out _ (by simp; omega)]

/-- The head of the marker. -/
theorem mk_head (p : Pgm) :
    (getMkRdx p).1.code 0 = .marker ∧ (getMkRdx p).1.code 1 = .rptr 0 ∧ (getMkRdx p).1.code 2 = .iptr 5 ∧
    (getMkRdx p).1.code 3 = .iptr (6 + p.inputs.length) ∧ (getMkRdx p).1.code 5 = .set p.inputs.length ∧
    ∀ i, i < p.inputs.length → (getMkRdx p).1.code (6 + i) = .rptr (i + 1) := by
  have low : ∀ j, j < 5 → (getMkRdx p).1.code j = pokes (fun _ => .blank) 0 [.marker, .rptr 0, .iptr 5, .iptr (6 + p.inputs.length), .word 1] j := by
    intro j hj
    show pokes (pokes _ _ _) _ _ _ = _
    rw [pokes_out _ (by omega)]
  refine ⟨by rw [low 0 (by omega)]; rfl, by rw [low 1 (by omega)]; rfl, by rw [low 2 (by omega)]; rfl, by rw [low 3 (by omega)]; rfl, ?_, fun i hi => ?_⟩
  · show pokes (pokes _ _ _) _ _ _ = _
    exact pokes_in (i := 5) (j := 0) _ (by simp)
  · show pokes (pokes _ _ _) _ _ _ = _
    have := pokes_in (c := pokes (fun _ => .blank) 0 [.marker, .rptr 0, .iptr 5, .iptr (6 + p.inputs.length), .word 1]) (i := 5) (j := i + 1)
      (.set p.inputs.length :: (List.range p.inputs.length).map fun i => Cell.rptr (i + 1)) (by simpa using hi)
    rw [show 6 + i = 5 + (i + 1) by omega]
    simpa using this

/-- The lines announced. -/
def lines (p : Pgm) : Nat := (p.prods.map (·.cmd.cnt)).sum - (p.prods.map (·.cmd.bare)).sum

/-- The marker, generally: the program and its inputs, what is to be reported, and lines nobody wrote. -/
theorem note_reads (p : Pgm) (c : Clock) (hn : p.nfr = true) (hc : (p.prods.map (·.cmd.cnt)).sum ≠ 0) :
    ∃ mk, notes (note p c) = p.ntf.map (fun g => (mk, p.host, g)) ∧
      (lines p = (p.prods.flatMap (reported c)).length → Reads p mk (p.prods.flatMap (reported c))) ∧
      (mk.code 3 = .iptr (6 + p.inputs.length) ∧ mk.code (6 + p.inputs.length) = .set (lines p) ∧
        (∀ (i : Nat) (h : i < (p.prods.flatMap (reported c)).length),
          Stands mk (mk.code (6 + p.inputs.length + 1 + i)) (p.prods.flatMap (reported c))[i]) ∧
        ∀ i, (p.prods.flatMap (reported c)).length ≤ i → i < lines p → mk.code (6 + p.inputs.length + 1 + i) = .blank) := by
  have hle := reported_all_le c p.prods
  have hi := DInv.all (c := c) p.prods (start_inv p (p.prods.map (·.cmd.cnt)).sum) (by rw [List.length_nil]; omega)
  rw [List.nil_append] at hi
  obtain ⟨k0, k1, k2, k3, k4, k5⟩ := mk_head p
  let d := drafted c p.prods (start p (p.prods.map (·.cmd.cnt)).sum).1
  have hnote : note p c = p.ntf.map fun g => .notify ⟨poke d.m.code (6 + p.inputs.length) (.set (lines p)), d.m.refs⟩ p.host g := by
    unfold note notify
    by_cases hg : p.ntf.length = 0
    · have : p.ntf = [] := List.length_eq_zero_iff.mp hg
      simp [this]
    · simp [hg, hc, hn]
      intro _ _
      constructor <;> rfl
  refine ⟨⟨poke d.m.code (6 + p.inputs.length) (.set (lines p)), d.m.refs⟩, ?_, ?_, ?_⟩
  · rw [hnote]
    unfold notes
    rw [List.filterMap_map]
    induction p.ntf with
    | nil => rfl
    | cons g l ih => simp_all
  all_goals
    have hhead : ∀ j, j < 6 + p.inputs.length → poke d.m.code (6 + p.inputs.length) (.set (lines p)) j = (getMkRdx p).1.code j := by
      intro j hj
      rw [poke_ne (by omega)]
      exact hi.head j hj
    have hline : ∀ (i : Nat) (h : i < (p.prods.flatMap (reported c)).length),
        Stands ⟨poke d.m.code (6 + p.inputs.length) (.set (lines p)), d.m.refs⟩ (poke d.m.code (6 + p.inputs.length) (.set (lines p)) (6 + p.inputs.length + 1 + i)) (p.prods.flatMap (reported c))[i] := by
      intro i h
      rw [poke_ne (by omega)]
      exact ((hi.lines i h).mono (mk' := ⟨poke d.m.code (6 + p.inputs.length) (.set (lines p)), d.m.refs⟩) (Nat.le_refl _) (List.prefix_refl _) fun j hj _ => poke_ne (by omega)).stands
  · intro hl
    refine ⟨(hhead 0 (by omega)).trans k0, ⟨(hhead 1 (by omega)).trans k1, ?_⟩, ⟨5, (hhead 2 (by omega)).trans k2, (hhead 5 (by omega)).trans k4, ?_⟩,
      ⟨6 + p.inputs.length, (hhead 3 (by omega)).trans k3, (poke_same _ _ _).trans (by rw [hl]), hline⟩⟩
    · obtain ⟨t, ht⟩ := hi.refs
      show d.m.refs[0]? = _
      rw [← ht]
      rfl
    · intro i h
      refine ⟨i + 1, ?_, ?_⟩
      · show poke d.m.code _ _ _ = _
        rw [show 5 + 1 + i = 6 + i by omega, hhead (6 + i) (by omega), k5 i h]
      · obtain ⟨t, ht⟩ := hi.refs
        show d.m.refs[i + 1]? = _
        rw [← ht, List.getElem?_append_left (by show i + 1 < (Ref.obj p.ipgm :: p.inputs.map Ref.obj).length; simpa using h)]
        show (Ref.obj p.ipgm :: p.inputs.map Ref.obj)[i + 1]? = _
        simp [h]
  · refine ⟨(hhead 3 (by omega)).trans k3, poke_same _ _ _, hline, fun i h h' => ?_⟩
    show poke d.m.code _ _ _ = _
    rw [poke_ne (by omega)]
    refine hi.rest i h ?_
    unfold lines at h'
    omega

/-- Commands of the executive that are counted but not reported. -/
def Cmd.silent : Cmd → Bool
  | .stop | .todo | .other => true
  | _ => false

/-- A program that injects an object and stops. -/
def stops : Pgm := { half with prods := [⟨.inject (.build 10 40) (some 11), true, plainCopy⟩, ⟨.stop, true, plainCopy⟩] }
/-- A program that only builds objects. -/
def builds : Pgm := { half with prods := [⟨.inject (.build 10 40) none, true, plainCopy⟩] }

/-- C142 fails: the marker of a program that stops the executive has a line nobody wrote, and a program that
only builds objects without views sends an empty marker. -/
theorem C142_notes_violated : ¬ C142_full ∧
    (∃ evs mk, injectProductions stops ⟨100, 0, 50, 10⟩ = .ret true evs ∧ notes evs = [(mk, 3, 5)] ∧
      mk.code 3 = .iptr 6 ∧ mk.code 6 = .set 2 ∧ mk.code 8 = .blank) ∧
    (∃ evs mk, injectProductions builds ⟨100, 0, 50, 10⟩ = .ret true evs ∧ notes evs = [(mk, 3, 5)] ∧
      mk.code 3 = .iptr 6 ∧ mk.code 6 = .set 0) := by
  have h2 : ∃ evs mk, injectProductions builds ⟨100, 0, 50, 10⟩ = .ret true evs ∧ notes evs = [(mk, 3, 5)] ∧
      mk.code 3 = .iptr 6 ∧ mk.code 6 = .set 0 := ⟨_, _, rfl, rfl, rfl, rfl⟩
  refine ⟨fun h => ?_, ⟨_, _, rfl, rfl, rfl, rfl, rfl⟩, h2⟩
  obtain ⟨evs, mk, he, hn, _⟩ := h2
  have := (h builds _ evs he).2 (by rintro ⟨_, h⟩; exact h rfl)
  rw [hn] at this
  cases this

theorem cnt_of_plain {c : Clock} {q : Prod} (hf : q.cmd.feasible = true) (hs : q.cmd.silent = false) :
    q.cmd.cnt = (reported c q).length + q.cmd.bare := by
  obtain ⟨cmd, ok, copy⟩ := q
  cases cmd with
  | inject a v => cases v <;> rfl
  | device d e => cases e <;> rfl
  | unknown => simp [Cmd.feasible] at hf
  | stop => simp [Cmd.silent] at hs
  | todo => simp [Cmd.silent] at hs
  | other => simp [Cmd.silent] at hs
  | _ => rfl

theorem cnt_all {c : Clock} (qs : List Prod) (hf : ∀ q ∈ qs, q.cmd.feasible = true) (hs : ∀ q ∈ qs, q.cmd.silent = false) :
    (qs.map (·.cmd.cnt)).sum = (qs.flatMap (reported c)).length + (qs.map (·.cmd.bare)).sum := by
  induction qs with
  | nil => rfl
  | cons q qs ih =>
    have h1 := cnt_of_plain (c := c) (hf q (by simp)) (hs q (by simp))
    have h2 := ih (fun x hx => hf x (by simp [hx])) (fun x hx => hs x (by simp [hx]))
    simp only [List.flatMap_cons, List.length_append, List.map_cons, List.sum_cons]
    omega

theorem sum_zero (qs : List Prod) (h : ∀ q ∈ qs, q.cmd.cnt = 0) : (qs.map (·.cmd.cnt)).sum = 0 := by
  induction qs with
  | nil => rfl
  | cons q qs ih =>
    simp only [List.map_cons, List.sum_cons, h q (by simp), ih fun x hx => h x (by simp [hx])]

/-- C142 in part: without stop and without commands the executive ignores, what is to be reported is
reported exactly, and a program that does not ask for it reports nothing. With such commands, the marker
holds what is to be reported, followed by lines nobody wrote. What is missing: those lines, and the empty
marker if there are only injections without views. -/
theorem C142_notes_partial (p : Pgm) (c : Clock) (evs : List Ev) (h : injectProductions p c = .ret true evs) :
    (p.nfr = true ∧ p.prods.flatMap (reported c) ≠ [] →
      ∃ mk, notes evs = p.ntf.map (fun g => (mk, p.host, g)) ∧
        ((∀ q ∈ p.prods, q.cmd.silent = false) → Reads p mk (p.prods.flatMap (reported c))) ∧
        ∃ a n, mk.code 3 = .iptr a ∧ mk.code a = .set n ∧ (p.prods.flatMap (reported c)).length ≤ n ∧
          (∀ (i : Nat) (h : i < (p.prods.flatMap (reported c)).length), Stands mk (mk.code (a + 1 + i)) (p.prods.flatMap (reported c))[i]) ∧
          ∀ i, (p.prods.flatMap (reported c)).length ≤ i → i < n → mk.code (a + 1 + i) = .blank) ∧
    (p.nfr = false ∨ (∀ q ∈ p.prods, q.cmd.cnt = 0) → notes evs = []) := by
  obtain ⟨h1, h2, h3, h4⟩ := run_true h
  rw [run_ok h1 h2 h3 h4] at h
  cases h
  rw [notes_run]
  refine ⟨fun ⟨hn, hne⟩ => ?_, fun hno => ?_⟩
  · have hle := reported_all_le c p.prods
    have hpos : (p.prods.flatMap (reported c)).length ≠ 0 := fun h0 => hne (List.length_eq_zero_iff.mp h0)
    obtain ⟨mk, e1, e2, e3, e4, e5, e6⟩ := note_reads p c hn (by omega)
    refine ⟨mk, e1, fun hs => e2 ?_, 6 + p.inputs.length, lines p, e3, e4, ?_, e5, e6⟩
    · have := cnt_all (c := c) p.prods h4 hs
      unfold lines
      omega
    · unfold lines; omega
  · have : note p c = [] := by
      unfold note notify
      rcases hno with h0 | h0
      · simp [h0]
      · have : (p.prods.map (·.cmd.cnt)).sum = 0 := by
          exact sum_zero p.prods h0
        simp [this]
    rw [this]
    rfl

theorem C142_nonvacuous : (∃ evs, injectProductions busy ⟨100, 0, 50, 10⟩ = .ret true evs) ∧ busy.nfr = true ∧
    (busy.prods.flatMap (reported ⟨100, 0, 50, 10⟩)).length = 5 ∧ (∀ q ∈ busy.prods, q.cmd.silent = false) ∧ busy.ntf = [5] := by
  refine ⟨⟨_, rfl⟩, rfl, rfl, ?_, rfl⟩
  intro q hq
  simp only [busy, List.mem_cons, List.not_mem_nil, or_false] at hq
  rcases hq with rfl | rfl | rfl | rfl | rfl <;> rfl

/-! ## C143 -/

/-- The shape of the events: facts stand behind the commands to devices that are carried out. -/
inductive Shape (p : Pgm) (c : Clock) : List Ev → Prop
  | nil : Shape p c []
  | other {e : Ev} {l : List Ev} (h1 : ∀ d, e ≠ .device d) (h2 : ∀ f g o, e ≠ .fact f g o) : Shape p c l → Shape p c (e :: l)
  | refused {q : Prod} {d : Nat} {l : List Ev} (hq : q ∈ p.prods) (he : q.cmd = .device d none) : Shape p c l → Shape p c (.device d :: l)
  | carried {q : Prod} {d x : Nat} {l : List Ev} (hq : q ∈ p.prods) (he : q.cmd = .device d (some x)) :
      Shape p c l → Shape p c (.device d :: .fact (cmdFact c x false) p.stdin p.host :: l)

theorem Shape.done {p : Pgm} {c : Clock} (prods : List Nat) (k : Nat) {q : Prod} (hq : q ∈ p.prods) {l : List Ev} (h : Shape p c l) :
    Shape p c (Prods.done p c prods k q.cmd ++ l) := by
  cases hc : q.cmd with
  | inject a v =>
    cases v with
    | none => exact h
    | some v => exact .other (by simp) (by simp) h
  | eject a v n => exact .other (by simp) (by simp) h
  | mod t m v => cases t <;> first | exact h | exact .other (by simp) (by simp) h
  | set t m v => cases t <;> first | exact h | exact .other (by simp) (by simp) h
  | prb b m => cases b <;> first | exact h | exact .other (by simp) (by simp) h
  | stop => exact .other (by simp) (by simp) h
  | device d e =>
    cases e with
    | none => exact .refused hq hc h
    | some e => exact .carried hq hc h
  | _ => exact h

theorem Shape.all {p : Pgm} {c : Clock} (prods : List Nat) (k : Nat) (qs : List Prod) (hq : ∀ q ∈ qs, q ∈ p.prods) {l : List Ev}
    (h : Shape p c l) : Shape p c (doneAll p c prods k qs ++ l) := by
  induction qs generalizing k with
  | nil => exact h
  | cons q qs ih =>
    rw [doneAll, List.append_assoc]
    exact Shape.done prods k (hq q (by simp)) (ih _ fun x hx => hq x (by simp [hx]))

theorem Shape.notes {p : Pgm} {c : Clock} (l : List Ev) (h : ∀ e ∈ l, e.isNote = true) : Shape p c l := by
  induction l with
  | nil => exact .nil
  | cons e l ih =>
    refine .other ?_ ?_ (ih fun x hx => h x (by simp [hx]))
    · rintro d rfl; have := h _ (List.mem_cons_self); simp [Ev.isNote] at this
    · rintro f g o rfl; have := h _ (List.mem_cons_self); simp [Ev.isNote] at this

theorem run_shape {p : Pgm} {c : Clock} {ok : Bool} {evs : List Ev} (h : injectProductions p c = .ret ok evs) : Shape p c evs := by
  cases ok with
  | true =>
    obtain ⟨h1, h2, h3, h4⟩ := run_true h
    rw [run_ok h1 h2 h3 h4] at h
    cases h
    exact Shape.all _ _ _ (fun _ h => h) (Shape.notes _ (note_isNote p c))
  | false =>
    unfold injectProductions at h
    split at h
    · cases h; exact .nil
    · split at h
      · cases h
      · cases h; exact .nil
      · rename_i s1 h1
        simp only at h
        by_cases hf : ∀ q ∈ p.prods, q.cmd.feasible = true
        · rw [second_feasible p.prods _ hf] at h
          simp at h
        · have hex : ∃ a q b, p.prods = a ++ q :: b ∧ (∀ x ∈ a, x.cmd.feasible = true) ∧ q.cmd.feasible = false := by
            push Not at hf
            obtain ⟨q, hq, hqf⟩ := hf
            simp only [ne_eq, Bool.not_eq_true] at hqf
            clear h h1
            generalize p.prods = l at hq
            induction l with
            | nil => simp at hq
            | cons x l ih =>
              cases hx : x.cmd.feasible with
              | false => exact ⟨[], x, l, rfl, by simp, hx⟩
              | true =>
                rcases List.mem_cons.mp hq with rfl | hq
                · rw [hx] at hqf; cases hqf
                · obtain ⟨a, y, b, rfl, h1, h2⟩ := ih hq
                  exact ⟨x :: a, y, b, rfl, fun z hz => by rcases List.mem_cons.mp hz with rfl | hz; exacts [hx, h1 z hz], h2⟩
          obtain ⟨a, y, b, he, ha, hy⟩ := hex
          have hin : ∀ q ∈ a, q ∈ p.prods := fun q hq => by rw [he]; simp [hq]
          rw [he, (second_infeasible a y b _ ha hy).1, (second_infeasible a y b _ ha hy).2] at h
          simp only [Bool.false_eq_true, if_false, List.nil_append] at h
          cases h
          have := Shape.all (p := p) (c := c) s1.prods 0 a hin .nil
          rwa [List.append_nil] at this

theorem Shape.head {p : Pgm} {c : Clock} {l : List Ev} (h : Shape p c l) : ∀ f g o r, l ≠ .fact f g o :: r := by
  intro f g o r he
  cases h with
  | nil => cases he
  | other h1 h2 => cases he; exact h2 _ _ _ rfl
  | refused => cases he
  | carried => cases he

theorem cmdFact_fits (c : Clock) (x : Nat) (h0 : 0 ≤ c.tol) (h1 : 2 * c.tol < c.period) (h2 : c.ref ≤ c.now) : (cmdFact c x false).fits c := by
  have hp : 0 < c.period := by omega
  have hm0 : (0 : Int) ≤ (c.now - c.ref).tmod c.period := Int.tmod_nonneg _ (by omega)
  have hm1 : (c.now - c.ref).tmod c.period < c.period := Int.tmod_lt_of_pos _ hp
  have hd := Int.tmod_add_mul_tdiv (c.now - c.ref) c.period
  have hq : 0 ≤ (c.now - c.ref).tdiv c.period := Int.tdiv_nonneg (by omega) (by omega)
  refine ⟨((c.now - c.ref).tdiv c.period).toNat, ?_⟩
  have hc : (((c.now - c.ref).tdiv c.period).toNat : Int) = (c.now - c.ref).tdiv c.period := Int.toNat_of_nonneg hq
  rw [hc]
  have hmul : (c.now - c.ref).tdiv c.period * c.period = c.period * (c.now - c.ref).tdiv c.period := Int.mul_comm _ _
  have hmul1 : ((c.now - c.ref).tdiv c.period + 1) * c.period = c.period * (c.now - c.ref).tdiv c.period + c.period := by
    rw [Int.add_mul, hmul, Int.one_mul]
  have hframe : frame c = c.ref + (c.now - c.ref).tdiv c.period * c.period := by
    unfold frame; omega
  rw [hmul1, hmul] at *
  simp only [cmdFact]
  refine ⟨by omega, by omega, by omega, by omega, by omega, by omega, by omega⟩

/-- C143: the facts of commands to devices. -/
theorem C143_facts : C143_statement := by
  intro p c ok evs h h0 h1 h2
  have hs := run_shape h
  clear h
  constructor
  · induction hs with
    | nil => intro l d r he; simp at he
    | other g1 g2 _ ih =>
      intro l d r he
      cases l with
      | nil => cases he; exact absurd rfl (g1 d)
      | cons x l => cases he; exact ih l d r rfl
    | refused hq hc hl ih =>
      intro l d r he
      cases l with
      | nil => cases he; exact ⟨_, hq, Or.inr ⟨hc, fun f g o r' => hl.head f g o r'⟩⟩
      | cons x l => cases he; exact ih l d r rfl
    | carried hq hc hl ih =>
      intro l d r he
      cases l with
      | nil => cases he; exact ⟨_, hq, Or.inl ⟨_, _, _, hc, rfl, rfl, rfl, cmdFact_fits c _ h0 h1 h2⟩⟩
      | cons x l =>
        cases l with
        | nil => cases he
        | cons y l => cases he; exact ih l d r rfl
  · induction hs with
    | nil => intro l f g o r he; simp at he
    | other g1 g2 _ ih =>
      intro l f g o r he
      cases l with
      | nil => cases he; exact absurd rfl (g2 f g o)
      | cons x l =>
        cases he
        obtain ⟨l', d, rfl, hd⟩ := ih l f g o r rfl
        exact ⟨_ :: l', d, rfl, hd⟩
    | refused hq hc hl ih =>
      intro l f g o r he
      cases l with
      | nil => cases he
      | cons x l =>
        cases he
        obtain ⟨l', d, rfl, hd⟩ := ih l f g o r rfl
        exact ⟨_ :: l', d, rfl, hd⟩
    | carried hq hc hl ih =>
      intro l f g o r he
      cases l with
      | nil => cases he
      | cons x l =>
        cases l with
        | nil => cases he; exact ⟨[], _, rfl, _, hq, hc⟩
        | cons y l =>
          cases he
          obtain ⟨l', d, rfl, hd⟩ := ih l f g o r rfl
          exact ⟨_ :: _ :: l', d, rfl, hd⟩

/-- With a tolerance of half the period or more, the fact of a command at the start of a frame is over
before it begins. -/
theorem C143_tolerance (c : Clock) (x : Nat) (h : c.period ≤ 2 * c.tol) (hn : c.now = c.ref) :
    (cmdFact c x false).before ≤ (cmdFact c x false).after := by
  have : frame c = c.now := by simp [frame, hn]
  simp only [cmdFact, this]
  omega

theorem C143_nonvacuous : ∃ evs, injectProductions busy ⟨130, 0, 50, 10⟩ = .ret true evs ∧
    evs[2]? = some (.device 20) ∧ evs[3]? = some (.fact ⟨21, 130, 150, false⟩ 4 3) ∧ evs[4]? = some (.device 22) := by
  exact ⟨_, rfl, rfl, rfl, rfl⟩

end Verif.Prods
