import Verif.Macro.Model
/-!
# C87: expansion is substitution
-/
namespace Verif.Macro
open Verif.Source

/-! ## Substitution -/

mutual
/-- Each atom that has a value replaced by it. -/
def subst (σ : Name → Option Tree) : Tree → Tree
  | .mk .atom l c t a => (σ c).getD (.mk .atom l c t a)
  | .mk .struct l c t a => .mk .struct l c t (substEach σ a)
  | .mk .set l c t a => .mk .set l c t (substEach σ a)
  | .mk .development l c t a => .mk .development l c t (substEach σ a)
  | .mk .root l c t a => .mk .root l c t a
  | .mk .directive l c t a => .mk .directive l c t a
  | .mk .condition l c t a => .mk .condition l c t a
def substEach (σ : Name → Option Tree) : List Tree → List Tree
  | [] => []
  | t :: ts => subst σ t :: substEach σ ts
end

mutual
/-- How many atoms have this name. -/
def occurs (n : Name) : Tree → Nat
  | .mk .atom _ c _ _ => if c = n then 1 else 0
  | .mk .struct _ _ _ a => occursEach n a
  | .mk .set _ _ _ a => occursEach n a
  | .mk .development _ _ _ a => occursEach n a
  | .mk .root _ _ _ _ => 0
  | .mk .directive _ _ _ _ => 0
  | .mk .condition _ _ _ _ => 0
def occursEach (n : Name) : List Tree → Nat
  | [] => 0
  | t :: ts => occurs n t + occursEach n ts
end

/-- The arguments as values of the parameters. -/
def given : List Tree → List Tree → Name → Option Tree
  | p :: ps, a :: as, n => if n = p.cmd then some a else given ps as n
  | _, _, _ => none

/-! ## One parameter -/

/-- Replacing one name. -/
def one (p : Name) (a : Tree) : Name → Option Tree := fun n => if n = p then some a else none

mutual
theorem subst_none (σ : Name → Option Tree) : ∀ t, (∀ n, 0 < occurs n t → σ n = none) → subst σ t = t
  | .mk .atom l c t a, h => by
    have := h c (by simp [occurs])
    simp [subst, this]
  | .mk .struct l c t a, h => by rw [subst, substEach_none σ a h]
  | .mk .set l c t a, h => by rw [subst, substEach_none σ a h]
  | .mk .development l c t a, h => by rw [subst, substEach_none σ a h]
  | .mk .root l c t a, _ => rfl
  | .mk .directive l c t a, _ => rfl
  | .mk .condition l c t a, _ => rfl
theorem substEach_none (σ : Name → Option Tree) : ∀ ts, (∀ n, 0 < occursEach n ts → σ n = none) → substEach σ ts = ts
  | [], _ => rfl
  | t :: ts, h => by
    rw [substEach, subst_none σ t (fun n hn => h n (by rw [occursEach]; omega)),
      substEach_none σ ts (fun n hn => h n (by rw [occursEach]; omega))]
end

mutual
theorem overwrite_one (p : Name) (a : Tree) : ∀ t,
    (occurs p t = 0 → overwrite p a t = none) ∧ (occurs p t = 1 → overwrite p a t = some (subst (one p a) t))
  | .mk .atom l c t as => by
    by_cases h : c = p
    · subst h
      simp [overwrite, occurs, subst, one]
    · simp [overwrite, occurs, h]
  | .mk .struct l c t as => by
    have := overwriteFirst_one p a as
    exact ⟨fun h => by rw [overwrite, this.1 h]; rfl, fun h => by rw [overwrite, this.2 h, subst]; rfl⟩
  | .mk .set l c t as => by
    have := overwriteFirst_one p a as
    exact ⟨fun h => by rw [overwrite, this.1 h]; rfl, fun h => by rw [overwrite, this.2 h, subst]; rfl⟩
  | .mk .development l c t as => by
    have := overwriteFirst_one p a as
    exact ⟨fun h => by rw [overwrite, this.1 h]; rfl, fun h => by rw [overwrite, this.2 h, subst]; rfl⟩
  | .mk .root l c t as => by simp [overwrite, occurs]
  | .mk .directive l c t as => by simp [overwrite, occurs]
  | .mk .condition l c t as => by simp [overwrite, occurs]
theorem overwriteFirst_one (p : Name) (a : Tree) : ∀ ts,
    (occursEach p ts = 0 → overwriteFirst p a ts = none) ∧
      (occursEach p ts = 1 → overwriteFirst p a ts = some (substEach (one p a) ts))
  | [] => by simp [overwriteFirst, occursEach]
  | t :: ts => by
    have h1 := overwrite_one p a t
    have h2 := overwriteFirst_one p a ts
    refine ⟨fun h => ?_, fun h => ?_⟩
    · rw [occursEach] at h
      rw [overwriteFirst, h1.1 (by omega), h2.1 (by omega)]
      rfl
    · rw [occursEach] at h
      by_cases h0 : occurs p t = 0
      · rw [overwriteFirst, h1.1 h0, h2.2 (by omega), substEach, subst_none _ t]
        · rfl
        · intro n hn
          have : n ≠ p := fun e => by subst e; omega
          simp [one, this]
      · rw [overwriteFirst, h1.2 (by omega), substEach, substEach_none _ ts]
        intro n hn
        have : n ≠ p := fun e => by subst e; omega
        simp [one, this]
end

theorem overwriteFirst_getD (p : Name) (a : Tree) (ts : List Tree) (h : occursEach p ts ≤ 1) :
    (overwriteFirst p a ts).getD ts = substEach (one p a) ts := by
  rcases Nat.lt_or_eq_of_le h with h | h
  · rw [(overwriteFirst_one p a ts).1 (by omega), substEach_none]
    · rfl
    · intro n hn
      have : n ≠ p := fun e => by subst e; omega
      simp [one, this]
  · rw [(overwriteFirst_one p a ts).2 h]
    rfl

mutual
theorem occurs_one (p : Name) (a : Tree) (n : Name) (hn : n ≠ p) (ha : occurs n a = 0) : ∀ t,
    occurs n (subst (one p a) t) = occurs n t
  | .mk .atom l c t as => by
    by_cases h : c = p
    · subst h
      simp [subst, one, occurs, ha, Ne.symm hn]
    · simp [subst, one, h]
  | .mk .struct l c t as => by rw [subst, occurs, occurs, occursEach_one p a n hn ha as]
  | .mk .set l c t as => by rw [subst, occurs, occurs, occursEach_one p a n hn ha as]
  | .mk .development l c t as => by rw [subst, occurs, occurs, occursEach_one p a n hn ha as]
  | .mk .root l c t as => rfl
  | .mk .directive l c t as => rfl
  | .mk .condition l c t as => rfl
theorem occursEach_one (p : Name) (a : Tree) (n : Name) (hn : n ≠ p) (ha : occurs n a = 0) : ∀ ts,
    occursEach n (substEach (one p a) ts) = occursEach n ts
  | [] => rfl
  | t :: ts => by rw [substEach, occursEach, occursEach, occurs_one p a n hn ha t, occursEach_one p a n hn ha ts]
end

mutual
theorem subst_comp (p : Name) (a : Tree) (σ : Name → Option Tree) (ha : subst σ a = a) : ∀ t,
    subst σ (subst (one p a) t) = subst (fun n => if n = p then some a else σ n) t
  | .mk .atom l c t as => by
    by_cases h : c = p
    · subst h
      simp [subst, one, ha]
    · simp [subst, one, h]
  | .mk .struct l c t as => by rw [subst, subst, subst, substEach_comp p a σ ha as]
  | .mk .set l c t as => by rw [subst, subst, subst, substEach_comp p a σ ha as]
  | .mk .development l c t as => by rw [subst, subst, subst, substEach_comp p a σ ha as]
  | .mk .root l c t as => rfl
  | .mk .directive l c t as => rfl
  | .mk .condition l c t as => rfl
theorem substEach_comp (p : Name) (a : Tree) (σ : Name → Option Tree) (ha : subst σ a = a) : ∀ ts,
    substEach σ (substEach (one p a) ts) = substEach (fun n => if n = p then some a else σ n) ts
  | [] => rfl
  | t :: ts => by rw [substEach, substEach, substEach, subst_comp p a σ ha t, substEach_comp p a σ ha ts]
end

theorem given_none (ps as : List Tree) (n : Name) (h : ∀ p ∈ ps, p.cmd ≠ n) : given ps as n = none := by
  induction ps generalizing as with
  | nil => cases as <;> rfl
  | cons p ps ih =>
    cases as with
    | nil => rfl
    | cons a as =>
      rw [given, if_neg (Ne.symm (h p (by simp)))]
      exact ih as fun q hq => h q (by simp [hq])

theorem fill_eq (ps : List Tree) : ∀ (as body : List Tree), as.length = ps.length →
    (ps.map Tree.cmd).Nodup → (∀ p ∈ ps, occursEach p.cmd body ≤ 1) →
    (∀ i j (hi : i < as.length) (hj : j < ps.length), i < j → occurs ps[j].cmd as[i] = 0) →
    fill ps as body = substEach (given ps as) body := by
  induction ps with
  | nil =>
    intro as body _ _ _ _
    rw [fill, substEach_none]
    · intro n _
      cases as <;> rfl
    · intro p ps a as h; cases h
  | cons p ps ih =>
    intro as body hl hd ho ha
    cases as with
    | nil => simp at hl
    | cons a as =>
      have hd' := List.nodup_cons.1 (by simpa using hd : (p.cmd :: ps.map Tree.cmd).Nodup)
      have hne : ∀ q ∈ ps, q.cmd ≠ p.cmd := fun q hq e => hd'.1 (e ▸ List.mem_map_of_mem hq)
      have ha0 : ∀ q ∈ ps, occurs q.cmd a = 0 := by
        intro q hq
        obtain ⟨j, hj, rfl⟩ := List.getElem_of_mem hq
        exact ha 0 (j + 1) (by simp) (by simpa using hj) (by omega)
      rw [fill, overwriteFirst_getD p.cmd a body (ho p (by simp))]
      rw [ih as _ (by simpa using hl) hd'.2]
      · rw [substEach_comp]
        · rfl
        · refine subst_none _ a fun n hn => given_none _ _ _ fun q hq e => ?_
          have := ha0 q hq
          rw [e] at this
          omega
      · intro q hq
        rw [occursEach_one _ _ _ (hne q hq) (ha0 q hq)]
        exact ho q (by simp [hq])
      · intro i j hi hj hij
        exact ha (i + 1) (j + 1) (by simpa using hi) (by simpa using hj) (by omega)

/-! ## C87 -/

/-- Expressions, developments and sets. -/
def Compound (t : Tree) : Prop := t.kind = .struct ∨ t.kind = .set ∨ t.kind = .development

/-- **C87** in full: a structure with the name of a macro, and as many arguments as that has parameters, becomes the
body of the macro with the label of the structure and each parameter replaced, wherever it is, by the argument. -/
def C87_full : Prop :=
  ∀ (m : Macro) (old : Tree), Written m.src → Written m.dest → Written old → old.cmd = m.src.cmd →
    (∀ p ∈ m.src.args, p.kind = .atom) → (m.src.args.map Tree.cmd).Nodup → m.src.args.length = old.args.length →
    expandMacro m old = some ((subst (given m.src.args old.args) m.dest).withLabel old.label)

/-- **C87**, proved: it does where the body is not itself a parameter, has each parameter at most once, and no argument
has the name of a later parameter in it. -/
theorem C87_substituted_partial (m : Macro) (old : Tree) (hl : m.src.args.length = old.args.length)
    (hd : (m.src.args.map Tree.cmd).Nodup) (hc : Compound m.dest)
    (ho : ∀ p ∈ m.src.args, occurs p.cmd m.dest ≤ 1)
    (ha : ∀ i j (hi : i < old.args.length) (hj : j < m.src.args.length), i < j →
      occurs m.src.args[j].cmd old.args[i] = 0) :
    expandMacro m old = some ((subst (given m.src.args old.args) m.dest).withLabel old.label) := by
  obtain ⟨src, dest⟩ := m
  obtain ⟨k, l, c, t, a⟩ := dest
  simp only at hl hd hc ho ha ⊢
  have ho' : ∀ p ∈ src.args, occursEach p.cmd a ≤ 1 := by
    intro p hp
    have := ho p hp
    rcases hc with h | h | h <;> simp only [Tree.kind] at h <;> subst h <;> exact this
  unfold expandMacro
  rw [if_neg (by simp only; omega), if_neg (by simp only; omega)]
  show some (Tree.mk k old.label c t (fill src.args old.args a)) = _
  rw [fill_eq src.args old.args a (by omega) hd ho' ha]
  rcases hc with h | h | h <;> simp only [Tree.kind] at h <;> subst h <;> rw [subst] <;> rfl

/-- A structure with another number of arguments is refused. -/
theorem C87_refused (m : Macro) (old : Tree) (h : m.src.args ≠ []) (hl : m.src.args.length ≠ old.args.length) :
    expandMacro m old = none := by
  unfold expandMacro
  rw [if_pos ⟨List.length_pos_iff.2 h, hl⟩]

/-- A macro without parameters gives the command only, and the arguments stay. -/
theorem C87_renamed (m : Macro) (old : Tree) (h : m.src.args = []) (hl : old.args ≠ []) :
    expandMacro m old = some (old.withCmd m.dest.cmd) := by
  unfold expandMacro
  rw [if_neg (by simp [h]), if_pos ⟨by simp [h], List.length_pos_iff.2 hl⟩]

/-- An atom. -/
def atom (n : String) : Tree := .mk .atom [] n.toList [] []
/-- An expression. -/
def expr (c : String) (as : List Tree) : Tree := .mk .struct [] c.toList [] as

theorem written_atom (c : Char) (h : Plain c) : Written (.mk .atom [] [c] [] []) := .atom _ (.plain c [] h .nil) (by simp)

theorem written_expr (c : Char) (h : Plain c) (as : List Tree) (ha : ∀ t ∈ as, Written t) :
    Written (.mk .struct [] [c] [] as) := .struct _ _ _ _ (Or.inl rfl) (.plain c [] h .nil) (by simp) (Or.inl rfl) ha

/-- **C87** does not hold in full: only the first occurrence of a parameter is replaced, what is put for one parameter
is taken for a later one, and a parameter that is the whole body is kept. -/
theorem C87_substituted_violated : ¬ C87_full ∧
    expandMacro ⟨expr "m" [atom "x"], expr "f" [atom "x", atom "x"]⟩ (expr "m" [atom "1"]) =
      some (expr "f" [atom "1", atom "x"]) ∧
    expandMacro ⟨expr "m" [atom "x", atom "y"], expr "f" [atom "x", atom "y"]⟩ (expr "m" [atom "y", atom "z"]) =
      some (expr "f" [atom "z", atom "y"]) ∧
    expandMacro ⟨expr "m" [atom "x"], atom "x"⟩ (expr "m" [atom "1"]) = some (atom "x") := by
  refine ⟨fun h => ?_, rfl, rfl, rfl⟩
  have := h ⟨expr "m" [atom "x"], expr "f" [atom "x", atom "x"]⟩ (expr "m" [atom "1"])
    (written_expr 'm' (by decide) _ (by intro t ht; obtain rfl := List.mem_singleton.1 ht; exact written_atom 'x' (by decide)))
    (written_expr 'f' (by decide) _ (by
      intro t ht
      rcases List.mem_cons.1 ht with rfl | ht
      · exact written_atom 'x' (by decide)
      · obtain rfl := List.mem_singleton.1 ht
        exact written_atom 'x' (by decide)))
    (written_expr 'm' (by decide) _ (by intro t ht; obtain rfl := List.mem_singleton.1 ht; exact written_atom '1' (by decide)))
    rfl (by intro p hp; obtain rfl := List.mem_singleton.1 hp; rfl) (by simp [expr, Tree.args]) rfl
  have h2 : expandMacro ⟨expr "m" [atom "x"], expr "f" [atom "x", atom "x"]⟩ (expr "m" [atom "1"]) =
      some (expr "f" [atom "1", atom "x"]) := rfl
  rw [h2] at this
  have h3 : (subst (given (expr "m" [atom "x"]).args (expr "m" [atom "1"]).args) (expr "f" [atom "x", atom "x"])).withLabel
      (expr "m" [atom "1"]).label = expr "f" [atom "1", atom "1"] := rfl
  rw [h3] at this
  simp [expr, atom] at this

/-- The hypotheses can hold: `(m x y)` for `(f [y (g x)])`, used as `l:(m (h x) 2)`. -/
theorem C87_nonvacuous :
    let m : Macro := ⟨expr "m" [atom "x", atom "y"], expr "f" [.mk .set [] [] [] [atom "y", expr "g" [atom "x"]]]⟩
    let old : Tree := .mk .struct "l:".toList "m".toList [] [expr "h" [atom "x"], atom "2"]
    Compound m.dest ∧ (∀ p ∈ m.src.args, occurs p.cmd m.dest ≤ 1) ∧
    (∀ i j (hi : i < old.args.length) (hj : j < m.src.args.length), i < j → occurs m.src.args[j].cmd old.args[i] = 0) ∧
    expandMacro m old = some (.mk .struct "l:".toList "f".toList []
      [.mk .set [] [] [] [atom "2", expr "g" [expr "h" [atom "x"]]]]) := by
  refine ⟨Or.inl rfl, ?_, ?_, rfl⟩
  · intro p hp
    rcases List.mem_cons.1 hp with rfl | hp
    · decide
    · obtain rfl := List.mem_singleton.1 hp
      decide
  · intro i j hi hj hij
    have hi' : i < 2 := hi
    have hj' : j < 2 := hj
    obtain rfl : i = 0 := by omega
    obtain rfl : j = 1 := by omega
    rfl

end Verif.Macro
