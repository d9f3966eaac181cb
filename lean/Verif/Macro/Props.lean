import Verif.Macro.Process
/-!
# C88: what preprocessing gives
-/
namespace Verif.Macro
open Verif.Source

/-- The definitions in a file. -/
def defs : List Tree → List (Tree × Tree)
  | [] => []
  | s :: rest =>
    match s with
    | .mk .directive _ c _ [src, b] => if c = "!def".toList then (src, b) :: defs rest else defs rest
    | _ => defs rest

/-- A line of a file: a structure, a directive for the compiler, or the definition of a macro. -/
def Line (s : Tree) : Prop :=
  Clean s ∨ IsDecl s ∨ (IsDef s ∧ ∃ src b, s.args = [src, b] ∧ src.cmd ≠ [] ∧ Clean b)

/-- `!ifdef name` and the like. -/
def Cond (s : Tree) : Prop :=
  s.kind = .condition ∧ (((s.cmd = "!ifdef".toList ∨ s.cmd = "!ifundef".toList) ∧ ∃ a, s.args = [a]) ∨
    s.cmd = "!else".toList ∨ s.cmd = "!endif".toList)

/-- The lines in the sections whose conditions hold: the names defined so far, and whether each section is to be taken. -/
def selected : List Name → List Bool → List Tree → List Tree
  | _, _, [] => []
  | names, sections, s :: rest =>
    if s.kind = .condition then
      let name := (s.args.head?.map Tree.cmd).getD []
      if s.cmd = "!ifdef".toList then selected names (names.contains name :: sections) rest
      else if s.cmd = "!ifundef".toList then selected names ((!names.contains name) :: sections) rest
      else if s.cmd = "!else".toList then selected names (sections.head?.map (!·) |>.toList |>.append sections.tail) rest
      else selected names sections.tail rest
    else if sections.all id then
      s :: selected (if s.kind = .directive ∧ s.cmd = "!def".toList then (s.args.head?.map Tree.cmd).getD [] :: names
        else names) sections rest
    else selected names sections rest

/-- The structures of a file. -/
def structures (l : List Tree) : List Tree := l.filter fun s => s.kind != .directive && s.kind != .condition

/-- **C88** in full: if preprocessing a file ends without error, what is written are the structures in the sections whose
conditions hold, in order, each with uses of the macros of the file replaced, and with no use left of a macro defined
before. -/
def C88_full : Prop :=
  ∀ (fs : Files) (f : Nat) (items : List Tree) (n : Nat) (st : St) (t : Tree), (∀ s ∈ items, Line s ∨ Cond s) →
    repeated fs f .new (file items) 0 = some (.ok (n, st, t)) →
    ∃ items', Each (Becomes (defs (selected [] [] items))) (selected [] [] items) items' ∧
      structures t.args = structures items' ∧ NoUse (fun _ => False) items'
where
  /-- A file of these lines. -/
  file (items : List Tree) : Tree := .mk .root [] [] [] items

theorem defs_mem {items : List Tree} {s src b : Tree} (hs : s ∈ items) (hd : IsDef s) (ha : s.args = [src, b]) :
    (src, b) ∈ defs items := by
  induction items with
  | nil => cases hs
  | cons x rest ih =>
    rcases List.mem_cons.1 hs with rfl | hs
    · obtain ⟨k, l, c, t, as⟩ := s
      obtain ⟨h1, h2⟩ := hd
      simp only [Tree.kind, Tree.cmd, Tree.args] at h1 h2 ha
      subst h1 h2 ha
      simp [defs]
    · have := ih hs
      unfold defs
      split
      · split
        · exact List.mem_cons_of_mem _ this
        · exact this
      · exact this

/-- **C88**, proved: it holds for files without conditions; and the lines themselves are then what is written. -/
theorem C88_expanded_partial (fs : Files) (f : Nat) (items : List Tree) (n : Nat) (st : St) (t : Tree)
    (hl : ∀ s ∈ items, Line s) (h : repeated fs f .new (.mk .root [] [] [] items) 0 = some (.ok (n, st, t))) :
    ∃ items', t = .mk .root [] [] [] items' ∧ Each (Becomes (defs items)) items items' ∧
      NoUse (fun _ => False) items' := by
  refine repeated_file fs (defs items) f .new items 0 n st t ⟨rfl, rfl, fun n m hm => (by cases hm)⟩ ?_ h
  intro s hs
  rcases hl s hs with h | h | ⟨h, src, b, ha, hne, hb⟩
  · exact Or.inl h
  · exact Or.inr (Or.inl h)
  · exact Or.inr (Or.inr ⟨h, src, b, b, ha, hne, defs_mem hs h ha, .refl _, hb⟩)

/-- What that says of the text: no use of a macro is left after its definition. -/
theorem C88_no_use_partial (fs : Files) (f : Nat) (items : List Tree) (out : List Char)
    (hl : ∀ s ∈ items, Line s) (h : preprocess fs f (.mk .root [] [] [] items) = some (.ok out)) :
    ∃ items', out = (Tree.mk .root [] [] [] items').print ∧ items'.length = items.length ∧
      ∀ pre d mid s post, items' = pre ++ d :: (mid ++ s :: post) → IsDef d → Clean s →
        ∀ src, d.args.head? = some src → Free (· = src.cmd) s := by
  unfold preprocess at h
  obtain ⟨r, h1, h2⟩ := Option.map_eq_some_iff.1 h
  cases r with
  | error b => cases h2
  | ok x =>
    obtain ⟨n, st, t⟩ := x
    obtain ⟨items', rfl, he, hn⟩ := C88_expanded_partial fs f items n st t hl h1
    refine ⟨items', ?_, ?_, ?_⟩
    · cases h2; rfl
    · have hlen : ∀ {R : Tree → Tree → Prop} {a b : List Tree}, Each R a b → b.length = a.length := by
        intro R a b h
        induction h with
        | nil => rfl
        | cons _ _ ih => simp [ih]
      exact hlen he
    · intro pre d mid s post hi hd hs src hsrc
      subst hi
      have drop : ∀ (pre : List Tree) (l : List Tree) (N : Name → Prop), NoUse N (pre ++ l) → NoUse N l := by
        intro pre
        induction pre with
        | nil => exact fun l N h => h
        | cons p pre ih => exact fun l N h => ih l N (h.2.mono fun _ hx => Or.inl hx)
      have h3 := (drop pre _ _ hn).2
      have h4 := (drop mid _ _ h3).1 hs
      have hf : ∀ {N N' : Name → Prop} (hN : ∀ n, N' n → N n) (t : Tree), Free N t → Free N' t := by
        intro N N' hN t h
        induction h with
        | mk k l c tl as hc _ ih => exact .mk k l c tl as (fun h => hc (hN _ h)) ih
      refine hf ?_ s h4
      intro x hx
      exact Or.inr ⟨hd, by rw [hsrc]; simp [hx]⟩

/-- A condition. -/
def cond (n : String) (as : List Tree) : Tree := .mk .condition [] n.toList [] as
/-- The definition of a macro. -/
def defn (src b : Tree) : Tree := .mk .directive [] "!def".toList [] [src, b]

/-- What is written for a file that loads none. -/
def written (f : Nat) (items : List Tree) : Option (Option (List Char)) :=
  (preprocess (fun _ => none) f (.mk .root [] [] [] items)).map Except.toOption

/-- **C88** does not hold in full: processing stops for good at the first condition, so that what is in sections whose
conditions do not hold is written, and nothing after is expanded. -/
theorem C88_conditions_violated : ¬ C88_full ∧
    written 20 [cond "!ifdef" [atom "x"], expr "f" [], cond "!endif" []] = some (some "\n(f)\n\n".toList) ∧
    written 20 [defn (expr "m" []) (expr "g" []), cond "!ifundef" [atom "x"], expr "m" [], cond "!endif" [], expr "m" []] =
      some (some "\n\n(m)\n\n(m)\n".toList) := by
  refine ⟨fun h => ?_, by decide +kernel, by decide +kernel⟩
  have hi : ∀ s ∈ [cond "!ifdef" [atom "x"], expr "f" [], cond "!endif" []], Line s ∨ Cond s := by
    intro s hs
    rcases List.mem_cons.1 hs with rfl | hs
    · exact Or.inr ⟨rfl, Or.inl ⟨Or.inl rfl, _, rfl⟩⟩
    rcases List.mem_cons.1 hs with rfl | hs
    · exact Or.inl (Or.inl (.mk _ _ _ _ _ (by simp) (by simp)))
    · obtain rfl := List.mem_singleton.1 hs
      exact Or.inr ⟨rfl, Or.inr (Or.inr rfl)⟩
  obtain ⟨items', h1, h2, -⟩ := h (fun _ => none) 4 [cond "!ifdef" [atom "x"], expr "f" [], cond "!endif" []] 0
    { St.new with conds := [("x".toList, false)] } (.mk .root [] [] [] [cond "!ifdef" [atom "x"], expr "f" [], cond "!endif" []])
    hi rfl
  have hs : selected [] [] [cond "!ifdef" [atom "x"], expr "f" [], cond "!endif" []] = [] := rfl
  rw [hs] at h1
  cases h1
  have : structures (Tree.mk .root [] [] [] [cond "!ifdef" [atom "x"], expr "f" [], cond "!endif" []]).args =
    [expr "f" []] := rfl
  rw [this] at h2
  cases h2

/-- `!undef` of a macro is undefined behaviour, and a macro used before its definition is expanded only if something
else changes. -/
theorem C88_order :
    (preprocess (fun _ => none) 20 (.mk .root [] [] [] [defn (expr "m" []) (expr "g" []),
      .mk .directive [] "!undef".toList [] [atom "m"]])).map (fun r => match r with | .error b => some b | .ok _ => none) =
      some (some .undefined) ∧
    written 20 [expr "m" [], defn (expr "m" []) (expr "g" [])] = some (some "(m)\n\n".toList) ∧
    written 20 [expr "m" [], defn (expr "m" []) (expr "g" []), expr "m" []] = some (some "(g)\n\n(g)\n".toList) := by
  decide +kernel

/-- Macros that use macros, in the body and as arguments. -/
theorem C88_nonvacuous :
    let items := [defn (expr "m" [atom "x"]) (expr "g" [atom "x"]), defn (expr "k" []) (expr "m" [atom "1"]),
      expr "h" [expr "m" [expr "k" []], atom "k"]]
    (∀ s ∈ items, Line s) ∧
    written 40 items = some (some "\n\n(h (g (g 1)) (g 1))\n".toList) := by
  refine ⟨?_, by decide +kernel⟩
  have ha : ∀ n, Clean (atom n) := fun n => .mk _ _ _ _ _ (by simp) (by simp)
  have he : ∀ c as, (∀ t ∈ as, Clean t) → Clean (expr c as) := fun c as h => .mk _ _ _ _ _ (by simp) h
  intro s hs
  rcases List.mem_cons.1 hs with rfl | hs
  · exact Or.inr (Or.inr ⟨⟨rfl, rfl⟩, _, _, rfl, by decide, he _ _ (by intro t ht; obtain rfl := List.mem_singleton.1 ht; exact ha _)⟩)
  rcases List.mem_cons.1 hs with rfl | hs
  · exact Or.inr (Or.inr ⟨⟨rfl, rfl⟩, _, _, rfl, by decide, he _ _ (by intro t ht; obtain rfl := List.mem_singleton.1 ht; exact ha _)⟩)
  · obtain rfl := List.mem_singleton.1 hs
    refine Or.inl (he _ _ ?_)
    intro t ht
    rcases List.mem_cons.1 ht with rfl | ht
    · exact he _ _ (by intro t ht; obtain rfl := List.mem_singleton.1 ht; exact he _ _ (by simp))
    · obtain rfl := List.mem_singleton.1 ht
      exact ha _

end Verif.Macro
