import Verif.Compile.Leaves

/-! # Reading several elements -/
namespace Verif.Compile
open Verif.Macro Verif.Classes Verif.Atom

/-- While elements are counted, all are read as anything. -/
def Relax (w : Bool) (p p' : Pos) : Prop := p' = p ∨ (w = false ∧ p' = .any)

/-- An element is read as it should be. -/
def Step (L : Lang) (e : Env) (U : Name → Iter → Prop) (f : Nat) (w : Bool) (p : Pos) (x : Syn) (D : List Name) (t : Tree)
    (D1 : List Name) : Prop :=
  ∀ p', Relax w p p' → ∀ s wi, Inv L s → LvlOk L e s.lvl → (∀ y ∈ D, y ∈ s.hlp) → (w = true → Room s wi t) →
    ∃ s', readPos f e s wi w p' x = .yes s' ∧ Did L U w s s' wi t D1

/-- Each element is. -/
inductive Steps (L : Lang) (e : Env) (U : Name → Iter → Prop) (f0 : Nat) (w : Bool) :
    List (Pos × Syn) → List Name → List Tree → List Name → Prop
  | nil {D} : Steps L e U f0 w [] D [] D
  | cons {p x r D t D1 ts D2} (h : ∀ f ≥ f0, Step L e U f w p x D t D1) (hr : Steps L e U f0 w r D1 ts D2) :
      Steps L e U f0 w ((p, x) :: r) D (t :: ts) D2

theorem Steps.mono {L e U f0 f1 w items D ts D'} (h : Steps L e U f0 w items D ts D') (hf : f0 ≤ f1) :
    Steps L e U f1 w items D ts D' := by
  induction h with
  | nil => exact .nil
  | cons h _ ih => exact .cons (fun f hf' => h f (by omega)) ih

theorem Steps.length {L e U f0 w items D ts D'} (h : Steps L e U f0 w items D ts D') : ts.length = items.length := by
  induction h with
  | nil => rfl
  | cons _ _ ih => simp [ih]

/-- What reading several elements does to the code. -/
structure WroteAll (s s' : St) (wi : Nat) (ts : List Tree) : Prop where
  ext : s'.ext = s.ext + sizes ts
  keep : ∀ i a, i < s.ext → (i < wi ∨ wi + ts.length ≤ i) → s.code[i]? = some a → s'.code[i]? = some a
  reads : ∀ (k : Nat) t, ts[k]? = some t → ReadsIn s'.code s'.hlp s'.refs s.ext s'.ext (wi + k) t

/-- What reading several elements changes, the levels of patterns aside. -/
structure DidAll (L : Lang) (U : Name → Iter → Prop) (w : Bool) (s s' : St) (wi : Nat) (ts : List Tree) (D : List Name) : Prop where
  same : Same L U s s' D
  wrote : w = true → WroteAll s s' wi ts
  idle : w = false → s'.code = s.code ∧ s'.ext = s.ext

variable {P : Limits} {L : Lang} {e : Env} {U : Name → Iter → Prop}

theorem Inv.setLvl {s : St} (h : Inv L s) (n : Nat) : Inv L { s with lvl := n } :=
  ⟨h.nodup, h.names, h.rnodup, h.objs, h.locals, h.noArity⟩

theorem Same.setLvl {s s' : St} {D : List Name} (h : Same L U s s' D) (n m : Nat) :
    Same L U { s with lvl := n } { s' with lvl := m } D :=
  ⟨h.inv.setLvl m, h.dom, h.hlp, h.refs, h.use⟩

theorem didAll_nil {s : St} {w : Bool} {wi : Nat} {D : List Name} (h : Inv L s) (hD : ∀ x ∈ D, x ∈ s.hlp) :
    DidAll L U w s s wi [] D :=
  ⟨Same.refl h hD, fun _ => ⟨by simp [sizes], fun _ _ _ _ h => h, fun k t h => by simp at h⟩, fun _ => ⟨rfl, rfl⟩⟩

/-- First one, then the others. -/
theorem didAll_cons {s s1 s' : St} {w : Bool} {wi n m : Nat} {t : Tree} {ts : List Tree} {D1 D2 : List Name}
    (h : Did L U w { s with lvl := n } s1 wi t D1) (h' : DidAll L U w { s1 with lvl := m } s' (wi + 1) ts D2)
    (hr : w = true → wi + 1 + ts.length ≤ s.ext) : DidAll L U w s s' wi (t :: ts) D2 := by
  have hs : Same L U s s' D2 := (h.same.setLvl s.lvl s1.lvl).trans (h'.same.setLvl s1.lvl s'.lvl)
  refine ⟨hs, fun hw => ?_, fun hw => ?_⟩
  · have hr := hr hw
    obtain ⟨a1, a2, a3⟩ := h.wrote hw
    obtain ⟨b1, b2, b3⟩ := h'.wrote hw
    simp only at a1 a2 a3 b1 b2 b3
    refine ⟨by simp only [sizes]; omega, ?_, ?_⟩
    · intro i a hi hn ha
      simp only [List.length_cons] at hn
      exact b2 i a (by omega) (by omega) (a2 i a hi (by omega) ha)
    · intro k x hk
      cases k with
      | zero =>
        simp only [List.getElem?_cons_zero, Option.some.injEq] at hk; subst hk
        refine a3.mono ?_ (h'.same.setLvl s1.lvl s'.lvl).hlp (h'.same.setLvl s1.lvl s'.lvl).refs (Nat.le_refl _) (by omega)
        intro j a hj ha
        refine b2 j a ?_ ?_ ha <;> omega
      | succ k =>
        simp only [List.getElem?_cons_succ] at hk
        have := b3 k x hk
        rw [show wi + (k + 1) = wi + 1 + k by omega]
        exact this.mono (fun j a _ ha => ha) List.prefix_rfl List.prefix_rfl (by omega) (Nat.le_refl _)
  · have h1 := h.idle hw
    have h2 := h'.idle hw
    exact ⟨h2.1.trans h1.1, h2.2.trans h1.2⟩

/-! ## The elements of a set of anything -/

theorem anyElems_run {items : List (Pos × Syn)} {f0 : Nat} {w : Bool} {D D' : List Name} {ts : List Tree}
    (h : Steps L e U f0 w items D ts D') (hp : ∀ p ∈ items, Relax w p.1 .any) :
    ∀ (s : St) (wi n f : Nat), f0 ≤ f → Inv L s → LvlOk L e s.lvl → (∀ y ∈ D, y ∈ s.hlp) →
      (w = true → wi + n + ts.length ≤ s.ext ∧ s.ext + sizes ts ≤ 4096) → 0 < n + items.length →
      ∃ s', anyElems (f + items.length + 1) e s wi w n (items.map (·.2)) = .yes s' ∧ DidAll L U w s s' (wi + n) ts D' ∧
        s'.lvl = s.lvl := by
  induction h with
  | nil =>
    intro s wi n f hf hI hL hD hr hn
    refine ⟨s, ?_, didAll_nil hI hD, rfl⟩
    have : n ≠ 0 := by simpa using Nat.pos_iff_ne_zero.1 (by simpa using hn)
    simp [anyElems, this]
  | @cons p x r D t D1 ts D2 h hr ih =>
    intro s wi n f hf hI hL hD hroom hn
    obtain ⟨s1, h1, h2⟩ := h (f + r.length + 1) (by omega) .any (hp (p, x) (by simp)) s (wi + n) hI hL hD (fun hw => by
      have := hroom hw
      simp only [List.length_cons, sizes] at this
      exact ⟨by omega, by omega⟩)
    obtain ⟨s', h3, h4, h5⟩ := ih (fun q hq => hp q (by simp [hq])) s1 wi (n + 1) f hf h2.same.inv (h2.lvl ▸ hL) h2.same.dom (fun hw => by
      have := hroom hw
      have h6 := (h2.wrote hw).ext
      simp only [List.length_cons, sizes] at this
      exact ⟨by omega, by omega⟩) (by omega)
    refine ⟨s', ?_, didAll_cons (n := s.lvl) (m := s1.lvl) h2 (by rwa [← Nat.add_assoc] at h4) (fun hw => ?_), h5.trans h2.lvl⟩
    · have h1 : readAny (f + r.length + 1) e s (wi + n) w x = .yes s1 := h1
      rw [show f + ((p, x) :: r).length + 1 = (f + r.length + 1) + 1 by simp; omega]
      simp only [List.map_cons, anyElems, h1]
      exact h3
    · have := hroom hw
      simp only [List.length_cons] at this
      omega

/-- The count of the elements of a set. -/
theorem setCount_run {items : List (Pos × Syn)} {f0 : Nat} {D D' : List Name} {ts : List Tree}
    (h : Steps L e U f0 false items D ts D') :
    ∀ (s : St) (f : Nat), f0 ≤ f → Inv L s → LvlOk L e s.lvl → (∀ y ∈ D, y ∈ s.hlp) →
      ∃ s', setCount (f + items.length + 1) e s (items.map (·.2)) = some (items.length, s') ∧ Same L U s s' D' ∧
        s'.code = s.code ∧ s'.ext = s.ext := by
  induction h with
  | nil =>
    intro s f hf hI hL hD
    exact ⟨s, by simp [setCount], Same.refl hI hD, rfl, rfl⟩
  | @cons p x r D t D1 ts D2 h hr ih =>
    intro s f hf hI hL hD
    obtain ⟨s1, h1, h2⟩ := h (f + r.length + 1) (by omega) .any (.inr ⟨rfl, rfl⟩) s 0 hI hL hD (fun hw => absurd hw (by simp))
    obtain ⟨s', h3, h4, h5, h6⟩ := ih s1 f hf h2.same.inv (h2.lvl ▸ hL) h2.same.dom
    have h7 := h2.idle rfl
    refine ⟨s', ?_, h2.same.trans h4, h5.trans h7.1, h6.trans h7.2⟩
    have h1 : readAny (f + r.length + 1) e s 0 false x = .yes s1 := h1
    rw [show f + ((p, x) :: r).length + 1 = (f + r.length + 1) + 1 by simp; omega]
    rw [List.map_cons, setCount]
    simp only [h1]
    rw [h3]; rfl

/-! ## The members of an expression -/

/-- The level of patterns before element `n`. -/
def lvlAt (pat : Bool) (last base n : Nat) : Nat := if pat = true ∧ 0 < n ∧ n ≤ last then base + 1 else base

theorem exprArgs_cons {f : Nat} {s s1 : St} {wi n : Nat} {w pat : Bool} {c : Class} {last : Nat} {x : Syn} {r : List Syn} {m : Member}
    (hn : n < arity c) (hm : c.members[n]? = some m)
    (h : readMember f e (if pat = true ∧ n = 0 then { s with lvl := s.lvl + 1 } else s) (wi + n) w m x = .yes s1) :
    exprArgs (f + 1) e s wi w c pat last n (x :: r) =
      exprArgs f e (if pat = true ∧ n = last then { s1 with lvl := s1.lvl - 1 } else s1) wi w c pat last (n + 1) r := by
  simp only [exprArgs, show ¬ n ≥ arity c by omega, if_false, hm, h]

/-- The level of patterns while element `n` is read. -/
def lvlIn (pat : Bool) (last base n : Nat) : Nat := if pat = true ∧ n = 0 then base + 1 else lvlAt pat last base n

theorem lvl_in {pat : Bool} {last base n : Nat} {s : St} (h : s.lvl = lvlAt pat last base n) :
    (if pat = true ∧ n = 0 then { s with lvl := s.lvl + 1 } else s) = { s with lvl := lvlIn pat last base n } := by
  unfold lvlIn
  by_cases hp : pat = true ∧ n = 0
  · obtain ⟨rfl, rfl⟩ := hp
    have : s.lvl = base := by rw [h]; simp [lvlAt]
    simp [this]
  · rw [if_neg hp, if_neg hp, ← h]

theorem lvl_out {pat : Bool} {last base n : Nat} {s : St} (h : s.lvl = lvlIn pat last base n) :
    (if pat = true ∧ n = last then { s with lvl := s.lvl - 1 } else s) = { s with lvl := lvlAt pat last base (n + 1) } := by
  unfold lvlIn lvlAt at *
  have key : (if pat = true ∧ n = last then s.lvl - 1 else s.lvl) = (if pat = true ∧ 0 < n + 1 ∧ n + 1 ≤ last then base + 1 else base) := by
    rw [h]
    cases pat with
    | false => simp
    | true =>
      by_cases h0 : n = 0
      · subst h0
        by_cases hl : last = 0
        · subst hl; simp
        · rw [if_neg (by simp; omega), if_pos (by simp), if_pos (by simp; omega)]
      · rw [if_neg (c := true = true ∧ n = 0) (by simp [h0])]
        by_cases h1 : n < last
        · rw [if_neg (by simp; omega), if_pos (by simp; omega), if_pos (by simp; omega)]
        · by_cases h2 : n = last
          · rw [if_pos (by simp; omega), if_pos (by simp; omega), if_neg (by simp; omega)]; rfl
          · rw [if_neg (by simp; omega), if_neg (by simp; omega), if_neg (by simp; omega)]
  rw [← key]
  split <;> rfl

theorem exprArgs_run {items : List (Pos × Syn)} {f0 : Nat} {w : Bool} {D D' : List Name} {ts : List Tree} {c : Class}
    {pat : Bool} {last base : Nat} {rest : List Syn} (h : Steps L e U f0 w items D ts D')
    (hlvl : ∀ n, n < arity c → LvlOk L e (lvlIn pat last base n)) (hc : c.members.length = arity c) :
    ∀ (args : List Syn) (s : St) (wi n f : Nat), f0 ≤ f → items = ((c.members.map Pos.mem).drop n).zip args →
      n + args.length ≤ arity c →
      Inv L s → s.lvl = lvlAt pat last base n → (∀ y ∈ D, y ∈ s.hlp) →
      (w = true → wi + n + ts.length ≤ s.ext ∧ s.ext + sizes ts ≤ 4096) →
      ∃ s', exprArgs (f + args.length) e s wi w c pat last n (args ++ rest) =
          exprArgs f e s' wi w c pat last (n + args.length) rest ∧ DidAll L U w s s' (wi + n) ts D' ∧
        s'.lvl = lvlAt pat last base (n + args.length) := by
  induction h with
  | nil =>
    intro args s wi n f hf hi hn hI hl hD hr
    cases args with
    | nil => exact ⟨s, rfl, didAll_nil hI hD, hl⟩
    | cons x r =>
      exfalso
      simp only [List.length_cons] at hn
      rw [List.drop_eq_getElem_cons (by simp; omega)] at hi
      simp at hi
  | @cons p x0 r0 D t D1 ts D2 h hr ih =>
    intro args s wi n f hf hi hn hI hl hD hroom
    cases args with
    | nil => simp at hi
    | cons x r =>
      simp only [List.length_cons] at hn
      rw [List.drop_eq_getElem_cons (by simp; omega)] at hi
      simp only [List.zip_cons_cons, List.cons.injEq, Prod.mk.injEq, List.getElem_map] at hi
      obtain ⟨⟨rfl, rfl⟩, hi⟩ := hi
      have hnl : n < c.members.length := by omega
      obtain ⟨s1, h1, h2⟩ := h (f + r.length) (by omega) _ (.inl rfl) { s with lvl := lvlIn pat last base n } (wi + n)
        (hI.setLvl _) (hlvl n (by omega)) hD (fun hw => by
          have := hroom hw
          simp only [List.length_cons, sizes] at this
          exact ⟨by simp only; omega, by simp only; omega⟩)
      have h1 : readMember (f + r.length) e { s with lvl := lvlIn pat last base n } (wi + n) w (c.members[n]) x0 = .yes s1 := h1
      rw [← lvl_in hl] at h1
      obtain ⟨s', h3, h4, h5⟩ := ih r { s1 with lvl := lvlAt pat last base (n + 1) } wi (n + 1) f hf hi (by omega)
        (h2.same.inv.setLvl _) rfl h2.same.dom (fun hw => by
          have := hroom hw
          have h6 := (h2.wrote hw).ext
          simp only [List.length_cons, sizes] at this
          simp only at h6
          exact ⟨by simp only; omega, by simp only; omega⟩)
      refine ⟨s', ?_, didAll_cons (n := lvlIn pat last base n) (m := lvlAt pat last base (n + 1)) h2 (by rwa [← Nat.add_assoc] at h4)
        (fun hw => ?_), ?_⟩
      · rw [show f + (x0 :: r).length = (f + r.length) + 1 by simp; omega, List.cons_append,
          exprArgs_cons (by omega) (List.getElem?_eq_getElem hnl) h1, lvl_out h2.lvl, h3]
        simp only [List.length_cons]
        congr 1; omega
      · have := hroom hw
        simp only [List.length_cons] at this
        omega
      · rw [h5]; simp only [List.length_cons]; congr 1; omega

end Verif.Compile
