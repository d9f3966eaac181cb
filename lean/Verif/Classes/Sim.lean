import Verif.Classes.Run

namespace Verif.Classes
open Verif.Source Verif.Macro

/-! ## Names of instances -/

def digits (i : Nat) : Name := (toString i).toList

theorem digits_eq (i : Nat) : digits i = Nat.toDigits 10 i := Nat.toList_repr

theorem digits_inj {i j : Nat} (h : digits i = digits j) : i = j := by
  rw [digits_eq, digits_eq] at h
  have := congrArg (Nat.ofDigitChars 10 · 0) h
  simpa [Nat.ofDigitChars_toDigits (b := 10) (by omega) (by omega)] using this

theorem digits_digit {i : Nat} {c : Char} (h : c ∈ digits i) : c.isDigit = true :=
  Nat.isDigit_of_mem_toDigits (b := 10) (by omega) (by omega) (digits_eq i ▸ h)

/-- A name that does not end in a digit. -/
def NoDigit (n : Name) : Prop := ∀ c, n.getLast? = some c → c.isDigit = false

theorem takeWhile_digits (n : Name) (h : NoDigit n) (l : Name) (hl : ∀ c ∈ l, c.isDigit = true) :
    ((n ++ l).reverse.takeWhile Char.isDigit) = l.reverse := by
  rw [List.reverse_append, List.takeWhile_append_of_pos (fun c hc => hl c (List.mem_reverse.1 hc))]
  suffices n.reverse.takeWhile Char.isDigit = [] by rw [this]; simp
  cases hn : n.reverse with
  | nil => rfl
  | cons c cs =>
    have : n.getLast? = some c := by rw [← List.head?_reverse, hn]; rfl
    simp [h c this]

theorem instance_inj {n m : Name} {i j : Nat} (hn : NoDigit n) (hm : NoDigit m) (h : n ++ digits i = m ++ digits j) : i = j := by
  have e := congrArg (fun l => l.reverse.takeWhile Char.isDigit) h
  simp only [takeWhile_digits n hn _ fun _ h => digits_digit h, takeWhile_digits m hm _ fun _ h => digits_digit h] at e
  exact digits_inj (List.reverse_inj.1 e)

theorem instanceName_eq (n : Name) (i : Nat) : instanceName (n ++ "[]".toList) i = n ++ digits i := by
  unfold instanceName
  rw [if_neg (by simp)]
  show (n ++ ['[', ']']).dropLast.dropLast ++ _ = _
  have : n ++ ['[', ']'] = (n ++ ['[']) ++ [']'] := by simp
  rw [this, List.dropLast_concat, List.dropLast_concat]; rfl

/-! ## States -/

/-- The classes are those defined under names taken, and instances numbered before. -/
def Clear (taken B : Name → Prop) (r : Reg) : Prop :=
  ∀ n c, r.classes n = some c → taken n ∨ ∃ b i, B b ∧ i < r.lastId ∧ n = b ++ digits i

/-- More classes, the new ones being instances with new numbers. -/
def Ext (B : Name → Prop) (r r' : Reg) : Prop :=
  r.lastId ≤ r'.lastId ∧ (∀ n c, r.classes n = some c → r'.classes n = some c) ∧
  ∀ n, r.classes n = none → r'.classes n ≠ none → ∃ b i, B b ∧ r.lastId ≤ i ∧ i < r'.lastId ∧ n = b ++ digits i

theorem Ext.refl {B : Name → Prop} (r : Reg) : Ext B r r := ⟨Nat.le_refl _, fun _ _ h => h, fun _ h h' => absurd h h'⟩

theorem Ext.trans {B : Name → Prop} {a b c : Reg} (h : Ext B a b) (h' : Ext B b c) : Ext B a c := by
  refine ⟨Nat.le_trans h.1 h'.1, fun n x hx => h'.2.1 n x (h.2.1 n x hx), fun n hn hc => ?_⟩
  by_cases hb : b.classes n = none
  · obtain ⟨x, i, h1, h2, h3, h4⟩ := h'.2.2 n hb hc
    exact ⟨x, i, h1, Nat.le_trans h.1 h2, h3, h4⟩
  · obtain ⟨x, i, h1, h2, h3, h4⟩ := h.2.2 n hn hb
    exact ⟨x, i, h1, h2, Nat.lt_of_lt_of_le h3 h'.1, h4⟩

theorem Clear.ext {taken B : Name → Prop} {r r' : Reg} (h : Clear taken B r) (e : Ext B r r') : Clear taken B r' := by
  intro n c hc
  cases hr : r.classes n with
  | some c' =>
    rcases h n c' hr with h | ⟨b, i, h1, h2, h3⟩
    · exact Or.inl h
    · exact Or.inr ⟨b, i, h1, Nat.lt_of_lt_of_le h2 e.1, h3⟩
  | none =>
    obtain ⟨b, i, h1, _, h3, h4⟩ := e.2.2 n hr (by rw [hc]; simp)
    exact Or.inr ⟨b, i, h1, h3, h4⟩

theorem Shown.mono {cl cl' : Name → Option Class} (h : ∀ n c, cl n = some c → cl' n = some c) {ms : List Member} {xs : List M}
    (hs : Shown cl ms xs) : Shown cl' ms xs := by
  induction hs with
  | done => exact .done
  | leaf _ ih => exact .leaf ih
  | sub h1 h2 h3 _ _ i1 i2 => exact .sub (h _ _ h1) h2 h3 i1 i2

theorem Shown.append {cl : Name → Option Class} {ms ms' : List Member} {xs xs' : List M} (h : Shown cl ms xs)
    (h' : Shown cl ms' xs') : Shown cl (ms ++ ms') (xs ++ xs') := by
  induction h with
  | done => exact h'
  | leaf _ ih => exact .leaf ih
  | sub h1 h2 h3 h4 _ _ i2 => exact .sub h1 h2 h3 h4 i2

section
variable (root : List Tree) (tpl : Templates) (taken B : Name → Prop)

/-- The arguments kept have the members meant: the one at the back is read as an argument, and so on. -/
def Stack : List Tree → List (List M) → Prop
  | _, [] => True
  | [], _ :: _ => False
  | t :: S, v :: env => ∀ r, Clear taken B r → ∃ f m S' r', getMember root tpl f true S r t = some (m, S', r') ∧ Ext B r r' ∧
      Shown r'.classes m v ∧ Stack S' env

/-- Reading one argument gives the members meant and takes the arguments meant. -/
def RunOne (inst : Bool) (us : List (List M)) (t : Tree) (v : List M) : Prop :=
  ∀ E S r, Stack root tpl taken B S (us ++ E) → Clear taken B r →
    ∃ f m S' r', getMember root tpl f inst S r t = some (m, S', r') ∧ Ext B r r' ∧ Shown r'.classes m v ∧
      Stack root tpl taken B S' E

/-- Reading one after the other. -/
inductive Runs (inst : Bool) : List (List M) → List Tree → List (List M) → Prop
  | done : Runs inst [] [] []
  | cons {us us' t ts v vs} : us.length = places t → RunOne root tpl taken B inst us t v → Runs inst us' ts vs →
      Runs inst (us ++ us') (t :: ts) (v :: vs)

variable {root tpl taken B}

theorem Runs.all {inst us ts vs} (h : Runs root tpl taken B inst us ts vs) (E : List (List M)) : ∀ S r,
    Stack root tpl taken B S (us ++ E) → Clear taken B r →
    ∃ f m S' r', getMembers root tpl f inst S r ts = some (m, S', r') ∧ Ext B r r' ∧ Shown r'.classes m vs.flatten ∧
      Stack root tpl taken B S' E := by
  induction h with
  | done => exact fun S r hS hr => ⟨1, [], S, r, rfl, Ext.refl r, .done, hS⟩
  | @cons us us' t ts v vs _ h1 _ ih =>
    intro S r hS hr
    rw [List.append_assoc] at hS
    obtain ⟨f, m, S1, r1, e1, x1, s1, k1⟩ := h1 _ S r hS hr
    obtain ⟨g, m', S2, r2, e2, x2, s2, k2⟩ := ih S1 r1 k1 (hr.ext x1)
    refine ⟨max f g + 1, m ++ m', S2, r2, ?_, x1.trans x2, ?_, k2⟩
    · simp only [getMembers]
      rw [(mono root tpl f).1 (max f g) _ _ _ _ _ (Nat.le_max_left _ _) e1]
      simp only [Option.bind_some]
      rw [(mono root tpl g).2.1 (max f g) _ _ _ _ _ (Nat.le_max_right _ _) e2]; rfl
    · rw [List.flatten_cons]; exact (s1.mono x2.2.1).append s2

/-- Arguments put on those kept. -/
theorem Runs.push {us as vs} (h : Runs root tpl taken B true us as vs) (hd : placesEach as.dropLast = 0) (E : List (List M))
    {S : List Tree} (hS : Stack root tpl taken B S (us ++ E)) : Stack root tpl taken B (as ++ S) (vs ++ E) := by
  induction h with
  | done => exact hS
  | @cons us us' t ts v vs hl h1 h2 ih =>
    cases ts with
    | nil =>
      cases h2
      intro r hr
      rw [List.append_nil] at hS
      exact h1 E S r hS hr
    | cons t' ts =>
      simp only [List.dropLast_cons_cons, placesEach] at hd
      have hu : us = [] := List.length_eq_zero_iff.1 (by omega)
      subst hu
      have hk := ih (by omega) hS
      intro r hr
      exact h1 (vs ++ E) (t' :: ts ++ S) r hk hr

/-- The number of an instance is not in use. -/
theorem fresh {n : Name} {r r' : Reg} (hB : ∀ b, B b → NoDigit b ∧ ∀ m, taken m → ∀ i, m ≠ b ++ digits i) (hn : B n) (hr : Clear taken B r)
    (h : Ext B { r with lastId := r.lastId + 1 } r') : r'.classes (n ++ digits r.lastId) = none := by
  cases hc : r'.classes (n ++ digits r.lastId) with
  | none => rfl
  | some c =>
    exfalso
    cases hr1 : r.classes (n ++ digits r.lastId) with
    | some c' =>
      rcases hr _ _ hr1 with h | ⟨b, i, h1, h2, h3⟩
      · exact (hB n hn).2 _ h _ rfl
      · have := instance_inj (hB n hn).1 (hB b h1).1 h3; omega
    | none =>
      obtain ⟨b, i, h1, h2, _, h4⟩ := h.2.2 _ hr1 (by rw [hc]; simp)
      have := instance_inj (hB n hn).1 (hB b h1).1 h4
      simp only at h2; omega

/-- An instance. -/
theorem instance_run {n : Name} {body : Tree} {as : List Tree} {ws xs : List (List M)} (hb : body.cmd = n ++ "[]".toList)
    (hB : ∀ b, B b → NoDigit b ∧ ∀ m, taken m → ∀ i, m ≠ b ++ digits i) (hn : B n)
    (ha : Runs root tpl taken B true [] as ws) (hbody : Runs root tpl taken B true ws body.args xs) (hp : placesEach as = 0)
    (r : Reg) (hr : Clear taken B r) :
    ∃ f r' c op, instantiate root tpl f r body as = some (n ++ digits r.lastId, r') ∧ Ext B r r' ∧
      r'.classes (n ++ digits r.lastId) = some c ∧ c.name = n ++ digits r.lastId ∧
      Atom.load c.atom = some (.struct_ .sset op (BitVec.ofNat 8 c.members.length)) ∧ Shown r'.classes c.members xs.flatten := by
  have hd : placesEach as.dropLast = 0 := by
    cases as with
    | nil => rfl
    | cons a as =>
      have : placesEach ((a :: as).dropLast ++ [(a :: as).getLast (by simp)]) = 0 := by
        rw [List.dropLast_concat_getLast]; exact hp
      rw [placesEach_append] at this; omega
  have hS : Stack root tpl taken B as ws := by
    have := ha.push hd [] (S := []) (by simp [Stack])
    simpa using this
  have hr' : Clear taken B { r with lastId := r.lastId + 1 } := by
    intro m c hc
    rcases hr m c hc with h | ⟨b, i, h1, h2, h3⟩
    · exact Or.inl h
    · exact Or.inr ⟨b, i, h1, Nat.lt_succ_of_lt h2, h3⟩
  obtain ⟨f, m, S', r1, e1, x1, s1, _⟩ := hbody.all [] as _ (by simpa using hS) hr'
  have hfr := fresh hB hn hr x1
  refine ⟨f + 1, r1.add ⟨Atom.sSet r1.opcode (BitVec.ofNat 8 m.length), n ++ digits r.lastId, m, .any⟩, ⟨Atom.sSet r1.opcode
    (BitVec.ofNat 8 m.length), n ++ digits r.lastId, m, .any⟩, Atom.low12 r1.opcode, ?_, ?_, ?_, rfl, ?_, ?_⟩
  · simp only [instantiate]
    rw [e1, hb, instanceName_eq]; rfl
  · refine ⟨Nat.le_trans (Nat.le_succ _) x1.1, ?_, ?_⟩
    · intro k c hk
      have := x1.2.1 k c hk
      simp only [Reg.add, Macro.set]
      rw [if_neg]
      · exact this
      · rintro rfl; rw [hfr] at this; exact absurd this (by simp)
    · intro k hk hk'
      simp only [Reg.add, Macro.set] at hk'
      by_cases he : k = n ++ digits r.lastId
      · exact ⟨n, r.lastId, hn, Nat.le_refl _, Nat.lt_of_lt_of_le (Nat.lt_succ_self _) x1.1, he⟩
      · rw [if_neg he] at hk'
        obtain ⟨b, i, h1, h2, h3, h4⟩ := x1.2.2 k hk hk'
        exact ⟨b, i, h1, Nat.le_trans (Nat.le_succ _) h2, h3, h4⟩
  · simp [Reg.add, Macro.set]
  · exact Atom.load_store (.struct_ .sset r1.opcode (BitVec.ofNat 8 m.length))
  · refine s1.mono fun k c hk => ?_
    simp only [Reg.add, Macro.set]
    rw [if_neg]
    · exact hk
    · rintro rfl; rw [hfr] at hk; exact absurd hk (by simp)

theorem getMember_place (f : Nat) (inst : Bool) (a : Tree) (S : List Tree) (r : Reg) {l tl as} :
    getMember root tpl (f + 1) inst (a :: S) r (.mk .atom l ":~".toList tl as) =
      if a.kind = .struct then
        (tpl a.cmd).bind fun t =>
          (instantiate root tpl f r t a.args).map fun x => ([instanceMember a.label x.1], S, x.2)
      else getMember root tpl f true S r a := by
  rw [getMember]; rfl

/-- Taking an argument that is kept. -/
theorem place_run (inst : Bool) (u : List M) {l tl as} :
    RunOne root tpl taken B inst [u] (.mk .atom l ":~".toList tl as) u := by
  intro E S r hS hr
  cases S with
  | nil => exact absurd hS (by simp [Stack])
  | cons a S =>
    obtain ⟨f, m, S', r', e, x, s, k⟩ := hS r hr
    refine ⟨f + 1, m, S', r', ?_, x, s, k⟩
    rw [getMember_place]
    by_cases hk : a.kind = .struct
    · rw [if_pos hk]
      cases f with
      | zero => simp [getMember] at e
      | succ f =>
        simp only [getMember, hk] at e
        obtain ⟨b, hb, e'⟩ := Option.bind_eq_some_iff.1 e
        rw [if_pos trivial] at e'
        obtain ⟨y, hy, e''⟩ := Option.map_eq_some_iff.1 e'
        rw [hb]; simp only [Option.bind_some]
        rw [(mono root tpl f).2.2 (f + 1) _ _ _ _ (Nat.le_succ _) hy]
        simp only [Option.map_some]
        obtain ⟨rfl, rfl, rfl⟩ : _ = m ∧ S = S' ∧ _ = r' := by simpa using e''
        rfl
    · rw [if_neg hk]; exact e

theorem runs (hargs : Args root)
    (hB : ∀ b, B b → NoDigit b ∧ ∀ m, taken m → ∀ i, m ≠ b ++ digits i)
    (ht : ∀ c body n, tpl c = some body → body.cmd = n ++ "[]".toList → B n)
    {inst us ts vs} (h : Means root tpl inst us ts vs) (hg : Good tpl inst ts) : Runs root tpl taken B inst us ts vs := by
  induction h with
  | done => exact .done
  | @nothing inst us ts vs l tl as _ ih =>
    cases hg with
    | simple _ hg =>
      refine Runs.cons (us := []) (by simp [places]) ?_ (ih hg)
      exact fun E S r hS _ => ⟨1, [], S, r, by simp [getMember, Tree.kind, Tree.cmd], Ext.refl r, .done, hS⟩
  | @leaf inst us ts vs t m hl hm ih =>
    have hp : places t = 0 := by
      have := (Means.leaf (inst := inst) hl (Means.done (root := root) (tpl := tpl))).length
      simp only [placesEach, List.length_nil] at this; omega
    have hg : Good tpl inst ts := by
      cases hg with
      | simple _ hg => exact hg
      | several _ hg => exact hg
      | base _ _ _ _ hg => exact hg
      | inst _ _ _ _ _ hg => exact hg
    refine Runs.cons (us := []) (by simp [hp]) ?_ (ih hg)
    exact fun E S r hS _ => ⟨1, [m], S, r, member_leaf hargs hl inst S r, Ext.refl r, .leaf .done, hS⟩
  | @place inst u us ts vs l tl as _ ih =>
    cases hg with
    | simple _ hg => exact Runs.cons (us := [u]) (by simp [places]) (place_run inst u) (ih hg)
  | @several inst us us' ts vs ws l c tl as h1 _ i1 i2 =>
    cases hg with
    | simple hk _ => simp [Tree.kind] at hk
    | several ha hg =>
      refine Runs.cons (by simpa [places] using h1.length) ?_ (i2 hg)
      intro E S r hS hr
      obtain ⟨f, m, S', r', e, x, s, k⟩ := (i1 ha).all E S r hS hr
      exact ⟨f + 1, m, S', r', by simpa [getMember, Tree.kind, Tree.args] using e, x, s, k⟩
  | @base us us' ts vs ws xs l c tl as body hc h1 _ _ i1 i2 i3 =>
    cases hg with
    | simple hk _ => simp [Tree.kind] at hk
    | base hc' hd ha hb hg =>
      obtain rfl : _ = body := Option.some.inj (hc'.symm.trans hc)
      refine Runs.cons (by simpa [places] using h1.length) ?_ (i3 hg)
      intro E S r hS hr
      obtain ⟨f, m, S', r', e, x, s, k⟩ := (i2 hb).all E (as ++ S) r ((i1 ha).push hd E hS) hr
      exact ⟨f + 1, m, S', r', by simpa [getMember, Tree.kind, Tree.args, Tree.cmd, hc] using e, x, s, k⟩
  | @inst us us' ts vs ws xs name c tl as body hc h1 _ _ i1 i2 i3 =>
    cases hg with
    | simple hk _ => simp [Tree.kind] at hk
    | @inst _ _ _ _ _ _ n hc' hn hp ha hb hg =>
      obtain rfl : _ = body := Option.some.inj (hc'.symm.trans hc)
      have hu : us = [] := List.length_eq_zero_iff.1 (by rw [h1.length, hp])
      subst hu
      refine Runs.cons (by simpa [places] using h1.length) ?_ (i3 hg)
      intro E S r hS hr
      obtain ⟨f, r', k, op, e, x, k1, k2, k3, k4⟩ := instance_run hn hB (ht c _ _ hc hn) (i1 ha) (i2 hb) hp r hr
      refine ⟨f + 1, [instanceMember (name ++ [':']) (n ++ digits r.lastId)], S, r', ?_, x, ?_, hS⟩
      · simp only [getMember, Tree.kind, Tree.args, Tree.cmd, hc, Option.bind_some, if_true, e, Option.map_some, Tree.label]
      · have : instanceMember (name ++ [':']) (n ++ digits r.lastId) = ⟨.set, name, n ++ digits r.lastId, .cls⟩ := by
          simp [instanceMember]
        rw [this]
        exact .sub k1 k2 k3 k4 .done
end

end Verif.Classes
