import Verif.Prods.Spec
import Mathlib.Tactic.SplitIfs
import Mathlib.Tactic.Push
/-!
# Lemmas on the productions of a program
-/
namespace Verif.Prods

/-! ## First pass -/

/-- The arguments of inj and eje. -/
def Cmd.arg : Cmd → Option Arg
  | .inject a _ => some a
  | .eject a _ _ => some a
  | _ => none

def Cmd.cnt : Cmd → Nat
  | .inject .. | .eject .. | .stop | .todo | .unknown | .other => 1
  | .device .. => 2
  | _ => 0

def Cmd.objs (c : Cmd) : List Nat := (c.arg.map Arg.obj).toList

/-- The objects built stand within the code of the program. -/
def Pgm.fits (p : Pgm) : Prop := ∀ q ∈ p.prods, ∀ o i, q.cmd.arg = some (.build o i) → i < p.codeSize

theorem pass1_ok {p : Pgm} {q : Prod} {s : S1} (h : p.red.isNone = true → q.ok = true)
    (hf : ∀ o i, q.cmd.arg = some (.build o i) → i < p.codeSize) :
    pass1 p q s = .ok ⟨s.prods ++ q.cmd.objs, s.count + q.cmd.cnt⟩ := by
  have h0 : (p.red.isNone && !q.ok) = false := by
    cases hr : p.red.isNone
    · rfl
    · simp [h hr]
  unfold pass1
  rw [h0]
  obtain ⟨cmd, ok, copy⟩ := q
  simp only [Bool.false_eq_true, if_false]
  cases cmd with
  | inject a v =>
    cases a with
    | ref o => simp [addArg, Cmd.objs, Cmd.arg, Cmd.cnt, Arg.obj]
    | build o i => simp [addArg, Cmd.objs, Cmd.arg, Cmd.cnt, Arg.obj, hf o i rfl]
  | eject a v n =>
    cases a with
    | ref o => simp [addArg, Cmd.objs, Cmd.arg, Cmd.cnt, Arg.obj]
    | build o i => simp [addArg, Cmd.objs, Cmd.arg, Cmd.cnt, Arg.obj, hf o i rfl]
  | _ => simp [Cmd.objs, Cmd.arg, Cmd.cnt]

theorem first_ok {p : Pgm} (qs : List Prod) (h : p.red.isNone = true → ∀ q ∈ qs, q.ok = true)
    (hf : ∀ q ∈ qs, ∀ o i, q.cmd.arg = some (.build o i) → i < p.codeSize) (s : S1) :
    first p qs s = .ok ⟨s.prods ++ qs.flatMap (·.cmd.objs), s.count + (qs.map (·.cmd.cnt)).sum⟩ := by
  induction qs generalizing s with
  | nil => simp [first]
  | cons q qs ih =>
    rw [first, pass1_ok (fun hr => h hr q (by simp)) (hf q (by simp))]
    simp only
    rw [ih (fun hr x hx => h hr x (by simp [hx])) (fun x hx => hf x (by simp [hx]))]
    simp [Nat.add_assoc]

theorem pass1_fail {p : Pgm} {q : Prod} {s : S1} (hr : p.red.isNone = true) (h : q.ok = false) : pass1 p q s = .fail := by
  simp [pass1, hr, h]

theorem pass1_red {p : Pgm} {q : Prod} {s : S1} (h : pass1 p q s = .fail) : p.red.isNone = true ∧ q.ok = false := by
  unfold pass1 at h
  split at h
  · rename_i h'
    simpa using h'
  · split at h <;> try contradiction
    all_goals
      unfold addArg at h
      split at h
      · contradiction
      · split at h <;> contradiction

/-- The first pass fails only if something does not evaluate. -/
theorem first_fail {p : Pgm} (qs : List Prod) (s : S1) (h : first p qs s = .fail) : p.red.isNone = true ∧ ∃ q ∈ qs, q.ok = false := by
  induction qs generalizing s with
  | nil => simp [first] at h
  | cons q qs ih =>
    rw [first] at h
    cases hq : pass1 p q s with
    | ok s' =>
      rw [hq] at h
      obtain ⟨h1, x, hx, hk⟩ := ih s' h
      exact ⟨h1, x, by simp [hx], hk⟩
    | ub => rw [hq] at h; cases h
    | fail =>
      obtain ⟨h1, h2⟩ := pass1_red hq
      exact ⟨h1, q, by simp, h2⟩

/-- A successful first pass: everything evaluated. -/
theorem first_evals {p : Pgm} (qs : List Prod) (s s' : S1) (h : first p qs s = .ok s') (hr : p.red.isNone = true) :
    ∀ q ∈ qs, q.ok = true := by
  induction qs generalizing s with
  | nil => simp
  | cons q qs ih =>
    rw [first] at h
    cases hk : q.ok with
    | false => rw [pass1_fail hr hk] at h; cases h
    | true =>
      cases hq : pass1 p q s with
      | ub => rw [hq] at h; cases h
      | fail => rw [hq] at h; cases h
      | ok s1 =>
        rw [hq] at h
        intro x hx
        rcases List.mem_cons.mp hx with rfl | hx
        · exact hk
        · exact ih s1 h x hx

/-- A successful first pass: everything built fitted. -/
theorem first_fits {p : Pgm} (qs : List Prod) (s s' : S1) (h : first p qs s = .ok s') :
    ∀ q ∈ qs, ∀ o i, q.cmd.arg = some (.build o i) → i < p.codeSize := by
  induction qs generalizing s with
  | nil => simp
  | cons q qs ih =>
    rw [first] at h
    cases hq : pass1 p q s with
    | ub => rw [hq] at h; cases h
    | fail => rw [hq] at h; cases h
    | ok s1 =>
      rw [hq] at h
      intro x hx
      rcases List.mem_cons.mp hx with rfl | hx
      · intro o i hoi
        unfold pass1 at hq
        split at hq
        · cases hq
        · obtain ⟨cmd, ok, copy⟩ := x
          cases cmd <;> simp only [Cmd.arg, reduceCtorEq, Option.some.injEq] at hoi
          all_goals
            subst hoi
            simp only [addArg] at hq
            split at hq
            · assumption
            · cases hq
      · exact ih s1 h x hx

/-! ## Second pass -/

/-- The marker after a command. -/
def draftStep (c : Clock) (q : Prod) (d : Draft) : Draft :=
  match q.cmd with
  | .inject _ (some _) => addCmd q d
  | .eject .. => addCmd q d
  | .device _ (some e) => addFact (cmdFact c e false) (addCmd q d)
  | .device d0 none => addFact (cmdFact c d0 true) (addCmd q d)
  | _ => d

def drafted (c : Clock) (qs : List Prod) (d : Draft) : Draft := qs.foldl (fun d q => draftStep c q d) d

/-- Injections without a view. -/
def Cmd.bare : Cmd → Nat
  | .inject _ none => 1
  | _ => 0

/-- What the second pass makes of a command, with the objects it finds. -/
def done (p : Pgm) (c : Clock) (prods : List Nat) (k : Nat) : Cmd → List Ev
  | .inject a (some v) => [.inject (objOf p prods a k) v p.host]
  | .eject a v n => [.eject (objOf p prods a k) v n]
  | x => wanted p c x

theorem change_of_feasible {isSet : Bool} {t : Target} (m : Nat) (v : Int) (h : isSet = true ∨ t ≠ .undefined) :
    change isSet t m v = some (wantedChange isSet m v t) := by
  cases t <;> simp [change, wantedChange] at h ⊢
  exact h

theorem pass2_feasible {p : Pgm} {c : Clock} {prods : List Nat} {q : Prod} {s : S2} (hf : q.cmd.feasible = true) :
    pass2 p c prods q s = (true,
      { evs := s.evs ++ done p c prods s.k q.cmd, draft := s.draft.map (draftStep c q), count := s.count - q.cmd.bare
        k := s.k + q.cmd.objs.length }) := by
  obtain ⟨cmd, ok, copy⟩ := q
  obtain ⟨evs, draft, count, k⟩ := s
  cases cmd with
  | inject a v => cases v <;> cases draft <;> simp [pass2, done, wanted, Cmd.bare, Cmd.objs, Cmd.arg, draftStep]
  | eject a v n => cases draft <;> simp [pass2, done, Cmd.bare, Cmd.objs, Cmd.arg, draftStep]
  | mod t m v =>
    have ht : t ≠ .undefined := by rintro rfl; simp [Cmd.feasible] at hf
    simp only [pass2, change_of_feasible m v (Or.inr ht)]
    cases draft <;> simp [done, wanted, Cmd.bare, Cmd.objs, Cmd.arg, draftStep]
  | set t m v =>
    simp only [pass2, change_of_feasible m v (Or.inl rfl)]
    cases draft <;> simp [done, wanted, Cmd.bare, Cmd.objs, Cmd.arg, draftStep]
  | unknown => simp [Cmd.feasible] at hf
  | prb heard msg => cases heard <;> cases draft <;> simp [pass2, done, wanted, Cmd.bare, Cmd.objs, Cmd.arg, draftStep]
  | device d e => cases e <;> cases draft <;> simp [pass2, done, wanted, Cmd.bare, Cmd.objs, Cmd.arg, draftStep]
  | _ => cases draft <;> simp [pass2, done, wanted, Cmd.bare, Cmd.objs, Cmd.arg, draftStep]

theorem pass2_infeasible {p : Pgm} {c : Clock} {prods : List Nat} {q : Prod} {s : S2} (hf : q.cmd.feasible = false) :
    pass2 p c prods q s = (false, s) := by
  obtain ⟨cmd, ok, copy⟩ := q
  cases cmd <;> simp [Cmd.feasible] at hf
  · rename_i t m v
    cases t <;> simp at hf
    rfl
  · rfl

/-- The events of the commands, the objects of the first ones being at `k`. -/
def doneAll (p : Pgm) (c : Clock) (prods : List Nat) : Nat → List Prod → List Ev
  | _, [] => []
  | k, q :: qs => done p c prods k q.cmd ++ doneAll p c prods (k + q.cmd.objs.length) qs

theorem second_feasible {p : Pgm} {c : Clock} {prods : List Nat} (qs : List Prod) (s : S2)
    (hf : ∀ q ∈ qs, q.cmd.feasible = true) :
    second p c prods qs s = (true,
      { evs := s.evs ++ doneAll p c prods s.k qs, draft := s.draft.map (drafted c qs)
        count := s.count - (qs.map (·.cmd.bare)).sum, k := s.k + (qs.flatMap (·.cmd.objs)).length }) := by
  induction qs generalizing s with
  | nil => cases hd : s.draft <;> cases s <;> simp_all [second, doneAll, drafted]
  | cons q qs ih =>
    rw [second, pass2_feasible (hf q (by simp))]
    simp only
    rw [ih _ (fun x hx => hf x (by simp [hx]))]
    simp only [doneAll, List.append_assoc, Option.map_map, List.map_cons, List.sum_cons, List.flatMap_cons, List.length_append,
      _root_.Prod.mk.injEq, S2.mk.injEq, true_and]
    refine ⟨rfl, by omega, by omega⟩

/-- An infeasible command stops the second pass. -/
theorem second_infeasible {p : Pgm} {c : Clock} {prods : List Nat} (qs : List Prod) (q : Prod) (rest : List Prod) (s : S2)
    (hf : ∀ q ∈ qs, q.cmd.feasible = true) (hq : q.cmd.feasible = false) :
    (second p c prods (qs ++ q :: rest) s).1 = false ∧
    (second p c prods (qs ++ q :: rest) s).2.evs = s.evs ++ doneAll p c prods s.k qs := by
  induction qs generalizing s with
  | nil => simp [second, pass2_infeasible hq, doneAll]
  | cons x qs ih =>
    rw [List.cons_append, second, pass2_feasible (hf x (by simp))]
    simp only
    obtain ⟨h1, h2⟩ := ih { evs := s.evs ++ done p c prods s.k x.cmd, draft := s.draft.map (draftStep c x), count := s.count - x.cmd.bare, k := s.k + x.cmd.objs.length } (fun y hy => hf y (by simp [hy]))
    exact ⟨h1, by rw [h2]; simp [doneAll]⟩

/-- The objects found are those meant, unless they were built in the value array. -/
def Pgm.plain (p : Pgm) : Prop := p.red.isNone = true ∨ ∀ q ∈ p.prods, ∀ o i, q.cmd.arg ≠ some (.build o i)

theorem objOf_eq {p : Pgm} {pre : List Nat} {post : List Nat} {a : Arg} (h : p.red.isNone = true ∨ ∀ o i, a ≠ .build o i) :
    objOf p (pre ++ a.obj :: post) a pre.length = a.obj := by
  cases a with
  | ref o => rfl
  | build o i =>
    rcases h with h | h
    · have : p.red.isSome = false := by cases hr : p.red <;> simp_all
      simp [objOf, this, Arg.obj]
    · exact absurd rfl (h o i)

theorem doneAll_wanted {p : Pgm} {c : Clock} (qs : List Prod) (pre post : List Nat)
    (h : p.red.isNone = true ∨ ∀ q ∈ qs, ∀ o i, q.cmd.arg ≠ some (.build o i)) :
    doneAll p c (pre ++ qs.flatMap (·.cmd.objs) ++ post) pre.length qs = qs.flatMap fun q => wanted p c q.cmd := by
  induction qs generalizing pre with
  | nil => rfl
  | cons q qs ih =>
    have h2 := ih (pre ++ q.cmd.objs) (h.imp id fun h x hx => h x (by simp [hx]))
    rw [List.length_append] at h2
    have e : pre ++ (q :: qs).flatMap (·.cmd.objs) ++ post = pre ++ q.cmd.objs ++ qs.flatMap (·.cmd.objs) ++ post := by simp
    rw [doneAll, e, h2, List.flatMap_cons]
    congr 1
    obtain ⟨cmd, ok, copy⟩ := q
    cases cmd with
    | inject a v =>
      cases v with
      | none => rfl
      | some v =>
        have := objOf_eq (p := p) (pre := pre) (post := qs.flatMap (·.cmd.objs) ++ post) (a := a)
          (h.imp id fun h o i he => h _ (List.mem_cons_self) o i (by rw [he]; rfl))
        show [Ev.inject (objOf p (pre ++ [a.obj] ++ qs.flatMap (·.cmd.objs) ++ post) a pre.length) v p.host] = _
        rw [show pre ++ [a.obj] ++ qs.flatMap (·.cmd.objs) ++ post = pre ++ a.obj :: (qs.flatMap (·.cmd.objs) ++ post) by simp, this]
        rfl
    | eject a v n =>
      have := objOf_eq (p := p) (pre := pre) (post := qs.flatMap (·.cmd.objs) ++ post) (a := a)
        (h.imp id fun h o i he => h _ (List.mem_cons_self) o i (by rw [he]; rfl))
      show [Ev.eject (objOf p (pre ++ [a.obj] ++ qs.flatMap (·.cmd.objs) ++ post) a pre.length) v n] = _
      rw [show pre ++ [a.obj] ++ qs.flatMap (·.cmd.objs) ++ post = pre ++ a.obj :: (qs.flatMap (·.cmd.objs) ++ post) by simp, this]
      rfl
    | _ => rfl

/-! ## The marker -/

theorem poke_same (c : Nat → Cell) (i : Nat) (x : Cell) : poke c i x i = x := by simp [poke]
theorem poke_ne {c : Nat → Cell} {i j : Nat} {x : Cell} (h : j ≠ i) : poke c i x j = c j := by simp [poke, h]

theorem pokes_out {c : Nat → Cell} (xs : List Cell) {i j : Nat} (h : j < i ∨ i + xs.length ≤ j) : pokes c i xs j = c j := by
  induction xs generalizing c i with
  | nil => rfl
  | cons x xs ih =>
    rw [pokes, ih (by simp at h; omega), poke_ne (by simp at h; omega)]

theorem pokes_in {c : Nat → Cell} (xs : List Cell) {i j : Nat} (h : j < xs.length) : pokes c i xs (i + j) = xs[j] := by
  induction xs generalizing c i j with
  | nil => simp at h
  | cons x xs ih =>
    rw [pokes]
    cases j with
    | zero => rw [pokes_out xs (by omega), Nat.add_zero, poke_same]; rfl
    | succ j =>
      have := ih (c := poke c i x) (i := i + 1) (j := j) (by simpa using h)
      rw [show i + (j + 1) = i + 1 + j by omega, this]
      rfl

/-- An entry whose words lie within bounds. -/
def StandsIn (lo hi : Nat) (mk : Mk) (x : Cell) : Entry → Prop
  | .cmd q => ∃ b rs, x = .iptr b ∧ rs ++ (q.copy b rs).2 <+: mk.refs ∧ lo ≤ b ∧ b + (q.copy b rs).1.length ≤ hi ∧
      ∀ (j : Nat) (h : j < (q.copy b rs).1.length), mk.code (b + j) = (q.copy b rs).1[j]
  | .fact f => ∃ r, x = .rptr r ∧ mk.refs[r]? = some (.fact f)

theorem StandsIn.stands {lo hi : Nat} {mk : Mk} {x : Cell} {e : Entry} (h : StandsIn lo hi mk x e) : Stands mk x e := by
  cases e with
  | cmd q =>
    obtain ⟨b, rs, h1, h2, _, _, h3⟩ := h
    exact ⟨b, rs, h1, h2, h3⟩
  | fact f => exact h

/-- Entries survive what is written elsewhere. -/
theorem StandsIn.mono {lo hi hi' : Nat} {mk mk' : Mk} {x : Cell} {e : Entry} (h : StandsIn lo hi mk x e) (hh : hi ≤ hi')
    (hr : mk.refs <+: mk'.refs) (hc : ∀ j, lo ≤ j → j < hi → mk'.code j = mk.code j) : StandsIn lo hi' mk' x e := by
  cases e with
  | cmd q =>
    obtain ⟨b, rs, h1, h2, h3, h4, h5⟩ := h
    exact ⟨b, rs, h1, h2.trans hr, h3, by omega, fun j hj => by rw [hc _ (by omega) (by omega), h5 j hj]⟩
  | fact f =>
    obtain ⟨r, h1, h2⟩ := h
    refine ⟨r, h1, ?_⟩
    obtain ⟨t, ht⟩ := hr
    rw [← ht, List.getElem?_append_left, h2]
    exact (List.getElem?_eq_some_iff.mp h2).1

/-- The marker while it is filled: `n` lines were announced, `es` have been written. -/
structure DInv (mk0 : Mk) (at_ n : Nat) (d : Draft) (es : List Entry) : Prop where
  w : d.w = at_ + 1 + es.length
  x : at_ + 1 + n ≤ d.x
  head : ∀ j, j < at_ → d.m.code j = mk0.code j
  refs : mk0.refs <+: d.m.refs
  lines : ∀ (i : Nat) (h : i < es.length), StandsIn (at_ + 1 + n) d.x d.m (d.m.code (at_ + 1 + i)) es[i]
  rest : ∀ i, es.length ≤ i → i < n → d.m.code (at_ + 1 + i) = .blank

theorem DInv.addCmd {mk0 : Mk} {at_ n : Nat} {d : Draft} {es : List Entry} (h : DInv mk0 at_ n d es) (hn : es.length < n)
    (q : Prod) : DInv mk0 at_ n (addCmd q d) (es ++ [.cmd q]) := by
  have hw := h.w
  have hx := h.x
  have low : ∀ j, j < at_ + 1 + n → j ≠ d.w → (Prods.addCmd q d).m.code j = d.m.code j := by
    intro j hj hj'
    show pokes _ _ _ j = _
    rw [pokes_out _ (by omega), poke_ne hj']
  have atw : (Prods.addCmd q d).m.code d.w = .iptr d.x := by
    show pokes _ _ _ d.w = _
    rw [pokes_out _ (by omega), poke_same]
  have mid : ∀ j, at_ + 1 + n ≤ j → j < d.x → (Prods.addCmd q d).m.code j = d.m.code j := by
    intro j hj hj'
    show pokes _ _ _ j = _
    rw [pokes_out _ (by omega), poke_ne (by omega)]
  have hrefs : d.m.refs <+: (Prods.addCmd q d).m.refs := List.prefix_append _ _
  refine ⟨?_, ?_, ?_, h.refs.trans hrefs, ?_, ?_⟩
  · show d.w + 1 = _
    simp only [List.length_append, List.length_singleton]; omega
  · show _ ≤ d.x + _; omega
  · intro j hj
    rw [low j (by omega) (by omega), h.head j hj]
  · intro i hi
    rw [List.length_append, List.length_singleton] at hi
    by_cases hie : i < es.length
    · rw [List.getElem_append_left hie, low _ (by omega) (by omega)]
      exact (h.lines i hie).mono (Nat.le_add_right _ _) hrefs mid
    · have he : i = es.length := by omega
      subst he
      simp only [List.getElem_append_right (Nat.le_refl _), Nat.sub_self, List.getElem_cons_zero]
      rw [← hw, atw]
      refine ⟨d.x, d.m.refs, rfl, List.prefix_refl _, hx, Nat.le_refl _, fun j hj => ?_⟩
      show pokes _ _ _ _ = _
      exact pokes_in _ hj
  · intro i hi hin
    rw [List.length_append, List.length_singleton] at hi
    rw [low _ (by omega) (by omega)]
    exact h.rest i (by omega) hin

theorem DInv.addFact {mk0 : Mk} {at_ n : Nat} {d : Draft} {es : List Entry} (h : DInv mk0 at_ n d es) (hn : es.length < n)
    (f : Fact) : DInv mk0 at_ n (addFact f d) (es ++ [.fact f]) := by
  have hw := h.w
  have hx := h.x
  have other : ∀ j, j ≠ d.w → (Prods.addFact f d).m.code j = d.m.code j := fun j hj => poke_ne hj
  have hrefs : d.m.refs <+: (Prods.addFact f d).m.refs := List.prefix_append _ _
  refine ⟨?_, hx, ?_, h.refs.trans hrefs, ?_, ?_⟩
  · show d.w + 1 = _
    simp only [List.length_append, List.length_singleton]; omega
  · intro j hj
    rw [other j (by omega), h.head j hj]
  · intro i hi
    rw [List.length_append, List.length_singleton] at hi
    by_cases hie : i < es.length
    · rw [List.getElem_append_left hie, other _ (by omega)]
      exact (h.lines i hie).mono (Nat.le_refl _) hrefs fun j hj _ => other j (by omega)
    · have he : i = es.length := by omega
      subst he
      simp only [List.getElem_append_right (Nat.le_refl _), Nat.sub_self, List.getElem_cons_zero]
      rw [← hw]
      exact ⟨d.m.refs.length, poke_same _ _ _, by show (d.m.refs ++ [_])[d.m.refs.length]? = _; simp⟩
  · intro i hi hin
    rw [List.length_append, List.length_singleton] at hi
    rw [other _ (by omega)]
    exact h.rest i (by omega) hin

theorem DInv.step {mk0 : Mk} {at_ n : Nat} {d : Draft} {es : List Entry} (h : DInv mk0 at_ n d es) {c : Clock} {q : Prod}
    (hn : es.length + (reported c q).length ≤ n) : DInv mk0 at_ n (draftStep c q d) (es ++ reported c q) := by
  obtain ⟨cmd, ok, copy⟩ := q
  cases cmd with
  | inject a v =>
    cases v with
    | none => simpa [draftStep, reported] using h
    | some v => exact h.addCmd (by simp [reported] at hn; omega) _
  | eject a v n => exact h.addCmd (by simp [reported] at hn; omega) _
  | device d0 e =>
    cases e with
    | none =>
      simp only [reported, List.length_cons, List.length_nil] at hn
      have := (h.addCmd (by omega) ⟨.device d0 none, ok, copy⟩).addFact (by simp; omega) (cmdFact c d0 true)
      simpa [draftStep, reported] using this
    | some e =>
      simp only [reported, List.length_cons, List.length_nil] at hn
      have := (h.addCmd (by omega) ⟨.device d0 (some e), ok, copy⟩).addFact (by simp; omega) (cmdFact c e false)
      simpa [draftStep, reported] using this
  | _ => simpa [draftStep, reported] using h

theorem DInv.all {mk0 : Mk} {at_ n : Nat} {c : Clock} (qs : List Prod) {d : Draft} {es : List Entry} (h : DInv mk0 at_ n d es)
    (hn : es.length + (qs.flatMap (reported c)).length ≤ n) : DInv mk0 at_ n (drafted c qs d) (es ++ qs.flatMap (reported c)) := by
  induction qs generalizing d es with
  | nil => simpa [drafted] using h
  | cons q qs ih =>
    rw [List.flatMap_cons, List.length_append] at hn
    have := ih (h.step (c := c) (q := q) (by omega)) (by rw [List.length_append]; omega)
    rwa [List.append_assoc] at this

theorem reported_le (c : Clock) (q : Prod) : (reported c q).length + q.cmd.bare ≤ q.cmd.cnt := by
  obtain ⟨cmd, ok, copy⟩ := q
  cases cmd with
  | inject a v => cases v <;> simp [reported, Cmd.cnt, Cmd.bare]
  | device d e => cases e <;> simp [reported, Cmd.cnt, Cmd.bare]
  | _ => simp [reported, Cmd.cnt, Cmd.bare]

theorem reported_all_le (c : Clock) (qs : List Prod) :
    (qs.flatMap (reported c)).length + (qs.map (·.cmd.bare)).sum ≤ (qs.map (·.cmd.cnt)).sum := by
  induction qs with
  | nil => simp
  | cons q qs ih =>
    have := reported_le c q
    simp only [List.flatMap_cons, List.length_append, List.map_cons, List.sum_cons]
    omega

end Verif.Prods
