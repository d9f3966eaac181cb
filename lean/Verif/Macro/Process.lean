import Verif.Macro.Expand
/-!
# Processing is expansion
-/
namespace Verif.Macro
open Verif.Source

/-- A relation between the members of two lists. -/
inductive Each {α : Type} (R : α → α → Prop) : List α → List α → Prop
  | nil : Each R [] []
  | cons {a b : α} {as bs : List α} : R a b → Each R as bs → Each R (a :: as) (b :: bs)

/-- What can be made of a structure by replacing uses of macros, with these definitions (`src` and body) whose bodies
may themselves be expanded. -/
inductive Derives (D : List (Tree × Tree)) : Tree → Tree → Prop
  | refl (t : Tree) : Derives D t t
  | trans {a b c : Tree} : Derives D a b → Derives D b c → Derives D a c
  | use {src body body' t t' : Tree} : (src, body) ∈ D → Derives D body body' → t.cmd = src.cmd →
    expandMacro ⟨src, body'⟩ t = some t' → Derives D t t'
  | inside {k : Kind} {l c tl : List Char} {xs ys : List Tree} {a a' : Tree} : Derives D a a' →
    Derives D (.mk k l c tl (xs ++ a :: ys)) (.mk k l c tl (xs ++ a' :: ys))

/-- Structures without directives and conditions in them. -/
inductive Clean : Tree → Prop
  | mk (k : Kind) (l c tl : List Char) (as : List Tree) :
    k = .atom ∨ k = .struct ∨ k = .set ∨ k = .development → (∀ t ∈ as, Clean t) → Clean (.mk k l c tl as)

/-- No structure in it has such a command. -/
inductive Free (N : Name → Prop) : Tree → Prop
  | mk (k : Kind) (l c tl : List Char) (as : List Tree) : ¬ N c → (∀ t ∈ as, Free N t) → Free N (.mk k l c tl as)

theorem Clean.args {t : Tree} (h : Clean t) : ∀ s ∈ t.args, Clean s := by
  cases h; assumption

theorem Clean.kind {t : Tree} (h : Clean t) : t.kind ≠ .directive ∧ t.kind ≠ .condition := by
  cases h with
  | mk k l c tl as hk _ => rcases hk with rfl | rfl | rfl | rfl <;> simp [Tree.kind]

theorem clean_with {t : Tree} (h : Clean t) (as : List Tree) (ha : ∀ s ∈ as, Clean s) : Clean (t.withArgs as) := by
  cases h with
  | mk k l c tl _ hk _ => exact .mk k l c tl as hk ha

mutual
theorem overwrite_clean (p : Name) (a : Tree) (ha : Clean a) : ∀ t t', Clean t → overwrite p a t = some t' → Clean t'
  | .mk .atom l c t as, t', _, h => by
    rw [overwrite] at h
    split at h
    · cases h; exact ha
    · cases h
  | .mk .struct l c t as, t', hc, h => by
    rw [overwrite] at h
    obtain ⟨as', h1, rfl⟩ := Option.map_eq_some_iff.1 h
    exact .mk _ _ _ _ _ (by simp) (overwriteFirst_clean p a ha as as' hc.args h1)
  | .mk .set l c t as, t', hc, h => by
    rw [overwrite] at h
    obtain ⟨as', h1, rfl⟩ := Option.map_eq_some_iff.1 h
    exact .mk _ _ _ _ _ (by simp) (overwriteFirst_clean p a ha as as' hc.args h1)
  | .mk .development l c t as, t', hc, h => by
    rw [overwrite] at h
    obtain ⟨as', h1, rfl⟩ := Option.map_eq_some_iff.1 h
    exact .mk _ _ _ _ _ (by simp) (overwriteFirst_clean p a ha as as' hc.args h1)
  | .mk .root l c t as, t', _, h => by simp [overwrite] at h
  | .mk .directive l c t as, t', _, h => by simp [overwrite] at h
  | .mk .condition l c t as, t', _, h => by simp [overwrite] at h
theorem overwriteFirst_clean (p : Name) (a : Tree) (ha : Clean a) : ∀ ts ts', (∀ t ∈ ts, Clean t) →
    overwriteFirst p a ts = some ts' → ∀ t ∈ ts', Clean t
  | [], _, _, h => by simp [overwriteFirst] at h
  | t :: ts, ts', hc, h => by
    rw [overwriteFirst] at h
    cases ho : overwrite p a t with
    | some t' =>
      rw [ho] at h
      cases h
      intro x hx
      rcases List.mem_cons.1 hx with rfl | hx
      · exact overwrite_clean p a ha t _ (hc t (by simp)) ho
      · exact hc x (by simp [hx])
    | none =>
      rw [ho] at h
      obtain ⟨ts'', h1, rfl⟩ := Option.map_eq_some_iff.1 h
      intro x hx
      rcases List.mem_cons.1 hx with rfl | hx
      · exact hc x (by simp)
      · exact overwriteFirst_clean p a ha ts ts'' (fun y hy => hc y (by simp [hy])) h1 x hx
end

theorem fill_clean (ps : List Tree) : ∀ (as body : List Tree), (∀ a ∈ as, Clean a) → (∀ t ∈ body, Clean t) →
    ∀ t ∈ fill ps as body, Clean t := by
  induction ps with
  | nil => intro as body _ hb; rw [fill]; exact hb; intro p ps a as h; cases h
  | cons p ps ih =>
    intro as body ha hb
    cases as with
    | nil => rw [fill]; exact hb; intro p ps a as _ h; cases h
    | cons a as =>
      rw [fill]
      refine ih as _ (fun x hx => ha x (by simp [hx])) ?_
      cases ho : overwriteFirst p.cmd a body with
      | none => exact hb
      | some b => exact overwriteFirst_clean p.cmd a (ha a (by simp)) body b hb ho

theorem expand_clean {m : Macro} {t t' : Tree} (hm : Clean m.dest) (ht : Clean t) (h : expandMacro m t = some t') :
    Clean t' := by
  unfold expandMacro at h
  split at h
  · cases h
  split at h
  · cases h
    cases ht with
    | mk k l c tl as hk ha => exact .mk k l _ tl as hk ha
  · cases h
    obtain ⟨src, dest⟩ := m
    cases hm with
    | mk k l c tl as hk ha => exact .mk k _ c tl _ hk (fill_clean _ _ _ ht.args ha)

theorem derives_each {D : List (Tree × Tree)} {k : Kind} {l c tl : List Char} {as bs : List Tree}
    (h : Each (Derives D) as bs) : ∀ pre, Derives D (.mk k l c tl (pre ++ as)) (.mk k l c tl (pre ++ bs)) := by
  induction h with
  | nil => exact fun pre => .refl _
  | @cons a b as bs hab _ ih =>
    intro pre
    have h1 : Derives D (.mk k l c tl (pre ++ a :: as)) (.mk k l c tl (pre ++ b :: as)) := .inside hab
    have h2 := ih (pre ++ [b])
    simp only [List.append_assoc, List.cons_append, List.nil_append] at h2
    exact h1.trans h2

/-- Nothing but macros of these definitions is kept. -/
structure StOk (D : List (Tree × Tree)) (st : St) : Prop where
  counters : st.counters = fun _ => none
  conds : st.conds = []
  macros : ∀ n m, st.macros n = some m → ∃ body, (m.src, body) ∈ D ∧ Derives D body m.dest ∧ Clean m.dest ∧
    m.src.cmd = n ∧ n ≠ []

/-- The names of macros. -/
def St.names (st : St) : Name → Prop := fun n => (st.macros n).isSome = true

theorem count_ok {D : List (Tree × Tree)} {st : St} (h : StOk D st) (t : Tree) : count st t = (0, st, t) := by
  unfold count
  rw [h.counters]

theorem use_ok {D : List (Tree × Tree)} {st : St} (h : StOk D st) {t t' : Tree} {n : Nat} (ht : Clean t)
    (hu : use st t = some (n, t')) :
    Derives D t t' ∧ Clean t' ∧ (n = 0 → t' = t ∧ ¬ st.names t.cmd) := by
  unfold use at hu
  cases hm : st.macros t.cmd with
  | none =>
    rw [hm] at hu
    cases hu
    exact ⟨.refl _, ht, fun _ => ⟨rfl, by simp [St.names, hm]⟩⟩
  | some m =>
    rw [hm] at hu
    obtain ⟨t'', he, h1⟩ := Option.map_eq_some_iff.1 hu
    cases h1
    obtain ⟨body, hd, hb, hc, hn, -⟩ := h.macros _ _ hm
    exact ⟨.use hd hb hn.symm he, expand_clean hc ht he, fun h => absurd h (by simp)⟩

theorem free_mk {N : Name → Prop} {t : Tree} (h : ¬ N t.cmd) (ha : ∀ s ∈ t.args, Free N s) : Free N t := by
  cases t; exact .mk _ _ _ _ _ h ha

theorem withArgs_self (t : Tree) : t.withArgs t.args = t := by cases t; rfl

/-- What processing does to structures. -/
theorem process_clean (fs : Files) (D : List (Tree × Tree)) (f : Nat) :
    (∀ st t n st' t', StOk D st → Clean t → process fs f st t = some (.ok (n, st', t')) →
      st' = st ∧ Derives D t t' ∧ Clean t' ∧ (n = 0 → t' = t ∧ Free st.names t)) ∧
    (∀ st t done rest n n' st' t', StOk D st → (∀ s ∈ rest, Clean s) →
      loop fs f st t done rest n = some (.ok (n', st', t')) →
      st' = st ∧ ∃ rest', t' = t.withArgs (done ++ rest') ∧ Each (Derives D) rest rest' ∧ (∀ s ∈ rest', Clean s) ∧ n ≤ n' ∧
        (n' = n → rest' = rest ∧ ∀ s ∈ rest, Free st.names s)) ∧
    (∀ st done rest n n' st' as, StOk D st → (∀ s ∈ rest, Clean s) →
      members fs f st done rest n = some (.ok (n', st', as)) →
      st' = st ∧ ∃ rest', as = done ++ rest' ∧ Each (Derives D) rest rest' ∧ (∀ s ∈ rest', Clean s) ∧ n ≤ n' ∧
        (n' = n → rest' = rest ∧ ∀ s ∈ rest, Free st.names s)) := by
  induction f with
  | zero =>
    refine ⟨?_, ?_, ?_⟩
    · intro st t n st' t' _ _ h; rw [process] at h; cases h
    · intro st t done rest n n' st' t' _ _ h; rw [loop] at h; cases h
    · intro st done rest n n' st' as _ _ h; rw [members] at h; cases h
  | succ f ih =>
    obtain ⟨ihP, ihL, ihM⟩ := ih
    refine ⟨?_, ?_, ?_⟩
    · intro st t n st' t' hst ht h
      rw [process] at h
      simp only [count_ok hst] at h
      cases hu : use st t with
      | none => rw [hu] at h; cases h
      | some p =>
        obtain ⟨k, t1⟩ := p
        rw [hu] at h
        simp only [Nat.zero_add] at h
        obtain ⟨h1, h2, h3⟩ := use_ok hst ht hu
        split at h
        · rename_i ha
          cases h
          refine ⟨rfl, h1, h2, fun h0 => ⟨(h3 h0).1, ?_⟩⟩
          obtain ⟨rfl, hn⟩ := h3 h0
          exact free_mk hn (by rw [ha]; simp)
        · obtain ⟨rfl, rest', rfl, h5, h6, h7, h8⟩ := ihL _ _ _ _ _ _ _ _ hst h2.args h
          refine ⟨rfl, h1.trans ?_, ?_, ?_⟩
          · obtain ⟨kk, l, c, tl, as⟩ := t1
            exact derives_each h5 []
          · exact clean_with h2 _ (by simpa using h6)
          · intro h0
            obtain ⟨rfl, hn⟩ := h3 (by omega)
            obtain ⟨rfl, h9⟩ := h8 (by omega)
            exact ⟨by simpa using withArgs_self t1, free_mk hn h9⟩
    · intro st t done rest n n' st' t' hst hr h
      cases rest with
      | nil =>
        rw [loop] at h
        cases h
        exact ⟨rfl, [], by simp, .nil, by simp, Nat.le_refl _, fun _ => ⟨rfl, by simp⟩⟩
      | cons s rest =>
        have hs := hr s (by simp)
        have hk := hs.kind
        rw [loop, if_neg hk.2, if_neg (by simp [hst.conds]), if_neg hk.1] at h
        cases hu : use st s with
        | none => rw [hu] at h; cases h
        | some p =>
          obtain ⟨k, s1⟩ := p
          rw [hu] at h
          simp only at h
          obtain ⟨h1, h2, h3⟩ := use_ok hst hs hu
          obtain ⟨r, hm, h'⟩ := Option.bind_eq_some_iff.1 h
          clear h
          cases r with
          | error b => cases h'
          | ok x =>
            obtain ⟨j, st1, as⟩ := x
            obtain ⟨rfl, rest1, rfl, m5, m6, m7, m8⟩ := ihM _ _ _ _ _ _ _ hst h2.args hm
            simp only [count_ok hst, List.nil_append, Nat.add_zero] at h'
            obtain ⟨rfl, rest2, rfl, l5, l6, l7, l8⟩ := ihL _ _ _ _ _ _ _ _ hst (fun x hx => hr x (by simp [hx])) h'
            refine ⟨rfl, s1.withArgs as :: rest2, by simp, .cons (h1.trans ?_) l5, ?_, by omega, ?_⟩
            · obtain ⟨kk, l, c, tl, _⟩ := s1
              exact derives_each m5 []
            · intro x hx
              rcases List.mem_cons.1 hx with rfl | hx
              · exact clean_with h2 _ m6
              · exact l6 x hx
            · intro h0
              obtain ⟨rfl, hn⟩ := h3 (by omega)
              obtain ⟨rfl, m9⟩ := m8 (by omega)
              obtain ⟨rfl, l9⟩ := l8 (by omega)
              refine ⟨by rw [withArgs_self], ?_⟩
              intro x hx
              rcases List.mem_cons.1 hx with rfl | hx
              · exact free_mk hn m9
              · exact l9 x hx
    · intro st done rest n n' st' as hst hr h
      cases rest with
      | nil =>
        rw [members] at h
        cases h
        exact ⟨rfl, [], by simp, .nil, by simp, Nat.le_refl _, fun _ => ⟨rfl, by simp⟩⟩
      | cons s rest =>
        rw [members] at h
        obtain ⟨r, hp, h'⟩ := Option.bind_eq_some_iff.1 h
        clear h
        cases r with
        | error b => cases h'
        | ok x =>
          obtain ⟨k, st1, s1⟩ := x
          obtain ⟨rfl, p2, p3, p4⟩ := ihP _ _ _ _ _ hst (hr s (by simp)) hp
          obtain ⟨rfl, rest2, rfl, l5, l6, l7, l8⟩ := ihM _ _ _ _ _ _ _ hst (fun x hx => hr x (by simp [hx])) h'
          refine ⟨rfl, s1 :: rest2, by simp, .cons p2 l5, ?_, by omega, ?_⟩
          · intro x hx
            rcases List.mem_cons.1 hx with rfl | hx
            · exact p3
            · exact l6 x hx
          · intro h0
            obtain ⟨rfl, p9⟩ := p4 (by omega)
            obtain ⟨rfl, l9⟩ := l8 (by omega)
            refine ⟨rfl, ?_⟩
            intro x hx
            rcases List.mem_cons.1 hx with rfl | hx
            · exact p9
            · exact l9 x hx

theorem repeated_clean (fs : Files) (D : List (Tree × Tree)) (f : Nat) : ∀ st t n n' st' t', StOk D st → Clean t →
    repeated fs f st t n = some (.ok (n', st', t')) →
    st' = st ∧ Derives D t t' ∧ Clean t' ∧ n ≤ n' ∧ (n' = n → t' = t) := by
  induction f with
  | zero => intro st t n n' st' t' _ _ h; rw [repeated] at h; cases h
  | succ f ih =>
    intro st t n n' st' t' hst ht h
    rw [repeated] at h
    obtain ⟨r, hp, h⟩ := Option.bind_eq_some_iff.1 h
    cases r with
    | error b => cases h
    | ok x =>
      obtain ⟨k, st1, t1⟩ := x
      obtain ⟨rfl, p2, p3, p4⟩ := (process_clean fs D f).1 _ _ _ _ _ hst ht hp
      cases k with
      | zero =>
        cases h
        exact ⟨rfl, p2, p3, Nat.le_refl _, fun _ => (p4 rfl).1⟩
      | succ k =>
        obtain ⟨rfl, q2, q3, q4, q5⟩ := ih _ _ _ _ _ _ hst p3 h
        exact ⟨rfl, p2.trans q2, q3, by omega, fun h0 => by omega⟩

/-! ## Files -/

/-- Definitions of macros. -/
def IsDef (s : Tree) : Prop := s.kind = .directive ∧ s.cmd = "!def".toList

/-- Directives for the compiler. -/
def IsDecl (s : Tree) : Prop :=
  s.kind = .directive ∧ (s.cmd = "!class".toList ∨ s.cmd = "!op".toList ∨ s.cmd = "!dfn".toList)

/-- A line of a file, its definitions being among those in `D` with the bodies expanded or not. -/
def LineOk (D : List (Tree × Tree)) (s : Tree) : Prop :=
  Clean s ∨ IsDecl s ∨ (IsDef s ∧ ∃ src body b, s.args = [src, b] ∧ src.cmd ≠ [] ∧ (src, body) ∈ D ∧ Derives D body b ∧ Clean b)

/-- What becomes of a line. -/
def Becomes (D : List (Tree × Tree)) (s s' : Tree) : Prop :=
  (Clean s ∧ Clean s' ∧ Derives D s s') ∨ (IsDecl s ∧ s' = s) ∨
    (IsDef s ∧ ∃ src b b', s.args = [src, b] ∧ s' = s.withArgs [src, b'] ∧ Derives D b b')

/-- No structure has a use of a macro defined before it, nor of one of these. -/
def NoUse : (Name → Prop) → List Tree → Prop
  | _, [] => True
  | N, s :: rest => (Clean s → Free N s) ∧ NoUse (fun n => N n ∨ (IsDef s ∧ s.args.head?.map Tree.cmd = some n)) rest

theorem NoUse.mono {N N' : Name → Prop} (hN : ∀ n, N' n → N n) : ∀ {l : List Tree}, NoUse N l → NoUse N' l := by
  have hf : ∀ t, Free N t → Free N' t := by
    intro t h
    induction h with
    | mk k l c tl as hc _ ih => exact .mk k l c tl as (fun h => hc (hN _ h)) ih
  intro l
  induction l generalizing N N' with
  | nil => exact fun _ => trivial
  | cons s rest ih =>
    intro h
    exact ⟨fun hs => hf s (h.1 hs), ih (fun n hn => hn.imp (hN n) id) (fun t ht => by
      induction ht with
      | mk k l c tl as hc _ ih => exact .mk k l c tl as (fun h => hc (h.imp (hN _) id)) ih) h.2⟩

theorem noDir {s : Tree} (h : Clean s) : ¬ IsDecl s ∧ ¬ IsDef s := ⟨fun e => h.kind.1 e.1, fun e => h.kind.1 e.1⟩

theorem isDef_with {s : Tree} {as : List Tree} : IsDef (s.withArgs as) ↔ IsDef s := by
  cases s
  exact Iff.rfl

theorem decl_not_def {s : Tree} (h : IsDecl s) : ¬ IsDef s := by
  rintro ⟨-, hd⟩
  obtain ⟨-, h⟩ := h
  rw [hd] at h
  revert h
  decide

theorem directive_decl (fs : Files) (st : St) {s : Tree} (h : IsDecl s) :
    directive fs st s = .ok (st, none) ∧ s.cmd ≠ "!def".toList := by
  refine ⟨?_, fun e => decl_not_def h ⟨h.1, e⟩⟩
  obtain ⟨-, h⟩ := h
  unfold directive
  rcases h with h | h | h <;> rw [h] <;> simp (decide := true) only [if_false]

theorem each_trans {α : Type} {R : α → α → Prop} (hR : ∀ a b c, R a b → R b c → R a c) {x y z : List α}
    (h : Each R x y) (h' : Each R y z) : Each R x z := by
  induction h generalizing z with
  | nil => cases h'; exact .nil
  | cons hab _ ih =>
    cases h' with
    | cons hbc h' => exact .cons (hR _ _ _ hab hbc) (ih h')

theorem becomes_trans {D : List (Tree × Tree)} (a b c : Tree) (h : Becomes D a b) (h' : Becomes D b c) : Becomes D a c := by
  rcases h with ⟨h1, h2, h3⟩ | ⟨h1, rfl⟩ | ⟨h1, src, x, y, h2, rfl, h3⟩
  · rcases h' with ⟨-, h5, h6⟩ | ⟨h4, -⟩ | ⟨h4, -⟩
    · exact Or.inl ⟨h1, h5, h3.trans h6⟩
    · exact absurd h4 (noDir h2).1
    · exact absurd h4 (noDir h2).2
  · exact h'
  · have h1' := isDef_with (as := [src, y]) |>.2 h1
    rcases h' with ⟨h4, -⟩ | ⟨h4, -⟩ | ⟨-, src', x', y', h5, rfl, h6⟩
    · exact absurd h1' (noDir h4).2
    · exact absurd h1' (decl_not_def h4)
    · refine Or.inr (Or.inr ⟨h1, src, x, y', h2, ?_, ?_⟩)
      · cases a
        simp only [Tree.withArgs, Tree.args, List.cons.injEq, and_true] at h5 ⊢
        rw [h5.1]
      · cases a
        simp only [Tree.withArgs, Tree.args, List.cons.injEq, and_true] at h5
        rw [h5.2] at h3
        exact h3.trans h6

theorem loop_lines (fs : Files) (D : List (Tree × Tree)) (f : Nat) : ∀ st t done rest n n' st' t', StOk D st →
    (∀ s ∈ rest, LineOk D s) → loop fs f st t done rest n = some (.ok (n', st', t')) →
    ∃ rest', t' = t.withArgs (done ++ rest') ∧ Each (Becomes D) rest rest' ∧ (∀ s ∈ rest', LineOk D s) ∧ StOk D st' ∧
      n ≤ n' ∧ (n' = n → rest' = rest ∧ NoUse st.names rest) := by
  induction f with
  | zero => intro st t done rest n n' st' t' _ _ h; rw [loop] at h; cases h
  | succ f ih =>
    intro st t done rest n n' st' t' hst hr h
    cases rest with
    | nil =>
      rw [loop] at h
      cases h
      exact ⟨[], by simp, .nil, by simp, hst, Nat.le_refl _, fun _ => ⟨rfl, trivial⟩⟩
    | cons s rest =>
      have hr' : ∀ x ∈ rest, LineOk D x := fun x hx => hr x (by simp [hx])
      rcases hr s (by simp) with hs | hs | ⟨hs, src, body, b, ha, hne, hD, hb, hbc⟩
      · -- a structure
        have hk := hs.kind
        have hnd := (noDir hs).2
        rw [loop, if_neg hk.2, if_neg (by simp [hst.conds]), if_neg hk.1] at h
        cases hu : use st s with
        | none => rw [hu] at h; cases h
        | some p =>
          obtain ⟨k, s1⟩ := p
          rw [hu] at h
          simp only at h
          obtain ⟨h1, h2, h3⟩ := use_ok hst hs hu
          obtain ⟨r, hm, h'⟩ := Option.bind_eq_some_iff.1 h
          clear h
          cases r with
          | error b => cases h'
          | ok x =>
            obtain ⟨j, st1, as⟩ := x
            obtain ⟨rfl, rest1, has, m5, m6, m7, m8⟩ := (process_clean fs D f).2.2 _ _ _ _ _ _ _ hst h2.args hm
            simp only [List.nil_append] at has
            subst has
            simp only [count_ok hst, Nat.add_zero] at h'
            obtain ⟨rest2, rfl, l5, l6, l7, l8, l9⟩ := ih _ _ _ _ _ _ _ _ hst hr' h'
            have hd : Derives D s (s1.withArgs as) := by
              refine h1.trans ?_
              obtain ⟨kk, l, c, tl, _⟩ := s1
              exact derives_each m5 []
            refine ⟨s1.withArgs as :: rest2, by simp, .cons (Or.inl ⟨hs, clean_with h2 _ m6, hd⟩) l5, ?_, l7, by omega, ?_⟩
            · intro x hx
              rcases List.mem_cons.1 hx with rfl | hx
              · exact Or.inl (clean_with h2 _ m6)
              · exact l6 x hx
            · intro h0
              obtain ⟨rfl, hn⟩ := h3 (by omega)
              obtain ⟨rfl, m9⟩ := m8 (by omega)
              obtain ⟨rfl, l9⟩ := l9 (by omega)
              refine ⟨by rw [withArgs_self], fun _ => free_mk hn m9, l9.mono ?_⟩
              rintro x (hx | hx)
              · exact hx
              · exact absurd hx.1 hnd
      · -- a directive for the compiler
        obtain ⟨hd1, hd2⟩ := directive_decl fs st hs
        rw [loop, if_neg (by rw [hs.1]; decide), if_neg (by simp [hst.conds]), if_pos hs.1, if_neg hd2, hd1] at h
        simp only [count_ok hst, Nat.add_zero] at h
        obtain ⟨rest2, rfl, l5, l6, l7, l8, l9⟩ := ih _ _ _ _ _ _ _ _ hst hr' h
        refine ⟨s :: rest2, by simp, .cons (Or.inr (Or.inl ⟨hs, rfl⟩)) l5, ?_, l7, l8, ?_⟩
        · intro x hx
          rcases List.mem_cons.1 hx with rfl | hx
          · exact Or.inr (Or.inl hs)
          · exact l6 x hx
        · intro h0
          obtain ⟨rfl, l9⟩ := l9 h0
          refine ⟨rfl, fun hc => absurd hs (noDir hc).1, l9.mono ?_⟩
          rintro x (hx | hx)
          · exact hx
          · exact absurd hx.1 (decl_not_def hs)
      · -- a definition
        rw [loop, if_neg (by rw [hs.1]; decide), if_neg (by simp [hst.conds]), if_pos hs.1, if_pos hs.2] at h
        simp only [ha, List.head?_cons, List.getLast?_cons_cons, List.getLast?_singleton] at h
        obtain ⟨r, hm, h'⟩ := Option.bind_eq_some_iff.1 h
        clear h
        cases r with
        | error b => cases h'
        | ok x =>
          obtain ⟨k, st1, b'⟩ := x
          obtain ⟨rfl, d1, d2, d3, d4⟩ := repeated_clean fs D f _ _ _ _ _ _ hst hbc hm
          have hargs : (s.withArgs [src, b']).args = [src, b'] := by cases s; rfl
          have hst2 : StOk D { st1 with macros := set st1.macros src.cmd (some ⟨src, b'⟩) } := by
            refine ⟨hst.counters, hst.conds, ?_⟩
            intro n m hm
            simp only [set] at hm
            split at hm
            · rename_i he
              cases hm
              exact ⟨body, hD, hb.trans d1, d2, he.symm, he ▸ hne⟩
            · exact hst.macros n m hm
          simp only [List.dropLast_cons_cons, List.dropLast_singleton, List.cons_append, List.nil_append, hargs,
            List.length_cons, List.length_nil, Nat.zero_add, Nat.reduceEqDiff, if_false, count_ok hst2, Nat.add_zero] at h'
          obtain ⟨rest2, rfl, l5, l6, l7, l8, l9⟩ := ih _ _ _ _ _ _ _ _ hst2 hr' h'
          refine ⟨s.withArgs [src, b'] :: rest2, by simp, .cons (Or.inr (Or.inr ⟨hs, src, b, b', ha, rfl, d1⟩)) l5, ?_, l7,
            by omega, ?_⟩
          · intro x hx
            rcases List.mem_cons.1 hx with rfl | hx
            · exact Or.inr (Or.inr ⟨isDef_with.2 hs, src, body, b', hargs, hne, hD, hb.trans d1, d2⟩)
            · exact l6 x hx
          · intro h0
            obtain rfl := d4 (by omega)
            obtain ⟨rfl, l9⟩ := l9 (by omega)
            refine ⟨by rw [← ha, withArgs_self], fun hc => absurd hs (noDir hc).2, l9.mono ?_⟩
            rintro x (hx | ⟨-, hx⟩)
            · simp only [St.names, set]
              split
              · rfl
              · exact hx
            · rw [ha] at hx
              simp only [List.head?_cons, Option.map_some, Option.some.injEq] at hx
              simp [St.names, set, hx]

theorem process_file (fs : Files) (D : List (Tree × Tree)) (f : Nat) (st : St) (items : List Tree) (n : Nat) (st' : St)
    (t' : Tree) (hst : StOk D st) (hr : ∀ s ∈ items, LineOk D s)
    (h : process fs f st (.mk .root [] [] [] items) = some (.ok (n, st', t'))) :
    ∃ items', t' = .mk .root [] [] [] items' ∧ Each (Becomes D) items items' ∧ (∀ s ∈ items', LineOk D s) ∧ StOk D st' ∧
      (n = 0 → items' = items ∧ NoUse st.names items) := by
  cases f with
  | zero => rw [process] at h; cases h
  | succ f =>
    have hu : use st (.mk .root [] [] [] items) = some (0, .mk .root [] [] [] items) := by
      unfold use
      cases hm : st.macros [] with
      | none => simp only [Tree.cmd, hm]
      | some m =>
        obtain ⟨body, -, -, -, -, h⟩ := hst.macros _ _ hm
        exact absurd rfl h
    rw [process] at h
    simp only [count_ok hst, hu, Nat.add_zero] at h
    split at h
    · rename_i he
      cases h
      cases items with
      | nil => exact ⟨[], rfl, .nil, by simp, hst, fun _ => ⟨rfl, trivial⟩⟩
      | cons a as => cases he
    · obtain ⟨items', h1, h2, h3, h4, -, h5⟩ := loop_lines fs D f _ _ _ _ _ _ _ _ hst hr h
      exact ⟨items', h1, h2, h3, h4, h5⟩

theorem becomes_refl {D : List (Tree × Tree)} {s : Tree} (h : LineOk D s) : Becomes D s s := by
  rcases h with h | h | ⟨h, src, body, b, ha, -⟩
  · exact Or.inl ⟨h, h, .refl _⟩
  · exact Or.inr (Or.inl ⟨h, rfl⟩)
  · exact Or.inr (Or.inr ⟨h, src, b, b, ha, by rw [← ha, withArgs_self], .refl _⟩)

theorem repeated_file (fs : Files) (D : List (Tree × Tree)) (f : Nat) : ∀ (st : St) (items : List Tree) (n n' : Nat) (st' : St)
    (t' : Tree), StOk D st → (∀ s ∈ items, LineOk D s) →
    repeated fs f st (.mk .root [] [] [] items) n = some (.ok (n', st', t')) →
    ∃ items', t' = .mk .root [] [] [] items' ∧ Each (Becomes D) items items' ∧ NoUse (fun _ => False) items' := by
  induction f with
  | zero => intro st items n n' st' t' _ _ h; rw [repeated] at h; cases h
  | succ f ih =>
    intro st items n n' st' t' hst hr h
    rw [repeated] at h
    obtain ⟨r, hp, h'⟩ := Option.bind_eq_some_iff.1 h
    clear h
    cases r with
    | error b => cases h'
    | ok x =>
      obtain ⟨k, st1, t1⟩ := x
      obtain ⟨items', rfl, p2, p3, p4, p5⟩ := process_file fs D f _ _ _ _ _ hst hr hp
      cases k with
      | zero =>
        cases h'
        obtain ⟨rfl, hn⟩ := p5 rfl
        exact ⟨items', rfl, p2, hn.mono fun _ h => h.elim⟩
      | succ k =>
        obtain ⟨items2, rfl, q2, q3⟩ := ih _ _ _ _ _ _ p4 p3 h'
        exact ⟨items2, rfl, each_trans becomes_trans p2 q2, q3⟩

end Verif.Macro
