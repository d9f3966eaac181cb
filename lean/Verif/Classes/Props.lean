import Verif.Classes.Opcodes

/-!
# Properties of classes made from definitions
-/
namespace Verif.Classes
open Verif.Source Verif.Macro

/-! ## More fuel does not matter -/

theorem define_mono {root : List Tree} {f g : Nat} (hg : f ≤ g) {a : All} {t : Tree} {a' : All}
    (h : define root f a t = some a') : define root g a t = some a' := by
  unfold define at h ⊢
  split at h
  · rename_i hk; rw [if_pos hk]; exact h
  rename_i hk; rw [if_neg hk]
  split at h
  · simp at h
  split at h
  · rename_i hc; rw [if_pos hc]
    split at h
    · rename_i hc'; rw [if_pos hc']; exact h
    · rename_i hc'; rw [if_neg hc']
      unfold defineClass at h ⊢
      obtain ⟨x, hx, h'⟩ := Option.bind_eq_some_iff.1 h
      rw [(mono root a.tpl f).2.1 g _ _ _ _ _ hg hx]
      exact h'
  rename_i hc; rw [if_neg hc]
  split at h
  · rename_i hc; rw [if_pos hc]
    unfold defineOperator at h ⊢
    obtain ⟨x, hx, h'⟩ := Option.map_eq_some_iff.1 h
    rw [(mono root a.tpl f).2.1 g _ _ _ _ _ hg hx]
    exact congrArg some h'
  · rename_i hc; rw [if_neg hc]; exact h

theorem fold_mono {root : List Tree} {f g : Nat} (hg : f ≤ g) : ∀ (ts : List Tree) {a a' : All},
    ts.foldlM (define root f) a = some a' → ts.foldlM (define root g) a = some a'
  | [], _, _, h => h
  | t :: ts, a, a', h => by
    rw [List.foldlM_cons] at h ⊢
    obtain ⟨a1, h1, h2⟩ := Option.bind_eq_some_iff.1 h
    rw [define_mono hg h1]
    exact fold_mono hg ts h2

/-! ## C90: definitions of classes -/

/-- C90, in full: if what is written has a meaning, all of it is read, and what is defined is as meant. -/
def C90_full : Prop := ∀ (id : Nat) (ls : List Line), Distinct ls → (∀ l ∈ ls, l.Proper) →
  (∀ d l more, ls = d ++ l :: more → l.Meant (ls.map Line.tree) (templatesOf d)) →
  (∃ f a, init f id (ls.map Line.tree) = some a) ∧
  ∀ f a, init f id (ls.map Line.tree) = some a →
    ∀ d l more, ls = d ++ l :: more → l.Correct (ls.map Line.tree) (templatesOf d) a

theorem args_of_proper {ls : List Line} (h : ∀ l ∈ ls, l.Proper) : Args (ls.map Line.tree) := by
  intro t ht hk
  obtain ⟨l, hl, rfl⟩ := List.mem_map.1 ht
  cases l with
  | other t => exact (h _ hl hk).1
  | _ => simp [Line.tree, Tree.args]

/-- C90, with places for arguments within arguments only where they are last, and none in those of sets. -/
theorem C90_definitions_partial (id : Nat) (ls : List Line) (hd : Distinct ls) (hp : ∀ l ∈ ls, l.Proper)
    (hm : ∀ d l more, ls = d ++ l :: more → l.Meant (ls.map Line.tree) (templatesOf d))
    (hg : ∀ d l more, ls = d ++ l :: more → l.Good (templatesOf d)) :
    (∃ f a, init f id (ls.map Line.tree) = some a) ∧
    ∀ f a, init f id (ls.map Line.tree) = some a →
      ∀ d l more, ls = d ++ l :: more → l.Correct (ls.map Line.tree) (templatesOf d) a := by
  obtain ⟨f, a, h, ha⟩ := all_lines (args_of_proper hp) hd hp hm hg ls [] (start id) rfl (after_start id)
  refine ⟨⟨f, a, h f (Nat.le_refl _)⟩, fun f' a' h' d l more he => ?_⟩
  have h2 := h (max f f') (Nat.le_max_left _ _)
  have h3 := fold_mono (Nat.le_max_right f f') _ h'
  rw [h2] at h3
  obtain rfl := Option.some.inj h3
  exact ha.correct d l more he

def at_ (s : String) : Tree := .mk .atom [] s.toList [] []
def use (l s : String) (as : List Tree) : Tree := .mk .struct l.toList s.toList [] as
def dev (as : List Tree) : Tree := .mk .development [] [] [] as

/-- A template with a place in the first of two arguments of another. -/
def crossed : List Line :=
  [.template "u".toList false [at_ ":~", at_ "x:", at_ ":~"],
   .template "t".toList false [use "" "u" [dev [at_ "p:", at_ ":~"], at_ "q:"]],
   .cls "c".toList false [use "" "t" [at_ "r:"]]]

def anyMember (s : String) : Member := ⟨.any, s.toList, [], .cls⟩

theorem any_leaf (root : List Tree) (s : String) (h : ':' ∉ s.toList) :
    Leaf root (.mk .atom [] (s.toList ++ [':']) [] []) (anyMember s) :=
  Leaf.builtin (type := []) (by simp [builtin]) h

theorem crossed_means (root : List Tree) :
    Means root (templatesOf (crossed.take 2)) false [] [use "" "t" [at_ "r:"]]
      [[.leaf (anyMember "p"), .leaf (anyMember "r"), .leaf (anyMember "x"), .leaf (anyMember "q")]] := by
  refine Means.base (us := []) (us' := []) (ws := [[.leaf (anyMember "r")]])
    (xs := [[.leaf (anyMember "p"), .leaf (anyMember "r"), .leaf (anyMember "x"), .leaf (anyMember "q")]])
    (body := use "" "t" [use "" "u" [dev [at_ "p:", at_ ":~"], at_ "q:"]]) rfl
    (Means.leaf (any_leaf root "r" (by decide)) Means.done) ?_ Means.done
  refine Means.base (us := [[.leaf (anyMember "r")]]) (us' := [])
    (ws := [[.leaf (anyMember "p"), .leaf (anyMember "r")], [.leaf (anyMember "q")]])
    (xs := [[.leaf (anyMember "p"), .leaf (anyMember "r")], [.leaf (anyMember "x")], [.leaf (anyMember "q")]])
    (body := use "" "u" [at_ ":~", at_ "x:", at_ ":~"]) rfl ?_ ?_ Means.done
  · refine Means.several (us := [[.leaf (anyMember "r")]]) (us' := []) (ws := [[.leaf (anyMember "p")], [.leaf (anyMember "r")]]) ?_ ?_
    · exact Means.leaf (any_leaf root "p" (by decide)) (Means.place Means.done)
    · exact Means.leaf (any_leaf root "q" (by decide)) Means.done
  · exact Means.place (Means.leaf (any_leaf root "x" (by decide)) (Means.place Means.done))

theorem shown_leaves {cl : Name → Option Class} : ∀ {ms : List Member} {ns : List Member},
    Shown cl ms (ns.map M.leaf) → ms = ns
  | [], [], _ => rfl
  | m :: ms, [], h => by cases h
  | [], n :: ns, h => by cases h
  | m :: ms, n :: ns, h => by
    cases h with
    | leaf h => rw [shown_leaves h]

theorem crossed_distinct : Distinct crossed := by
  refine ⟨by decide, fun n as h => ?_⟩
  simp [crossed] at h

theorem crossed_split {P : List Line → Line → Prop} (h0 : P [] (crossed[0]'(by decide)))
    (h1 : P (crossed.take 1) (crossed[1]'(by decide))) (h2 : P (crossed.take 2) (crossed[2]'(by decide))) :
    ∀ d l more, crossed = d ++ l :: more → P d l := by
  intro d l more h
  match d, h with
  | [], h => cases h; exact h0
  | [_], h => cases h; exact h1
  | [_, _], h => cases h; exact h2
  | _ :: _ :: _ :: d, h =>
    have := congrArg List.length h
    simp [crossed] at this

/-- The argument of `t` is put in the wrong place. -/
theorem C90_definitions_violated : ¬ C90_full ∧
    ∃ a c, init 20 0 (crossed.map Line.tree) = some a ∧ a.reg.classes "c".toList = some c ∧
      c.members = [anyMember "p", anyMember "q", anyMember "x", anyMember "r"] := by
  have w : ∃ a c, init 20 0 (crossed.map Line.tree) = some a ∧ a.reg.classes "c".toList = some c ∧
      c.members = [anyMember "p", anyMember "q", anyMember "x", anyMember "r"] :=
    ⟨_, _, rfl, rfl, rfl⟩
  refine ⟨fun h => ?_, w⟩
  obtain ⟨a, c, h1, h2, h3⟩ := w
  obtain ⟨_, h⟩ := h 0 crossed crossed_distinct (by
    intro l hl
    simp only [crossed, List.mem_cons, List.not_mem_nil, or_false] at hl
    rcases hl with rfl | rfl | rfl
    · exact ⟨by decide, by decide⟩
    · exact ⟨by decide, by decide⟩
    · exact ⟨by decide, by decide, fun _ => by simp⟩)
    (crossed_split trivial trivial ⟨_, crossed_means _⟩)
  obtain ⟨c', k, o, e1, _, _, _, _, e, _⟩ := h 20 a h1 (crossed.take 2) (crossed[2]'(by decide)) [] rfl
  have hc : c = c' := Option.some.inj (h2.symm.trans e1)
  subst hc
  have := shown_leaves (ns := [anyMember "p", anyMember "r", anyMember "x", anyMember "q"]) (e _ (crossed_means _))
  rw [h3] at this
  revert this
  decide

/-- Definitions as in std.replicode: templates of objects and facts, facts, a template of sets, a program with an instance
of it. -/
def std : List Line :=
  [.template "_obj".toList false [at_ ":~", at_ "psln_thr:nb"],
   .template "_fact".toList false [use "" "_obj" [dev [at_ "obj:", at_ "after:ts", at_ ":~"]]],
   .cls "fact".toList false [use "" "_fact" [at_ "nil"]],
   .template "_in_sec".toList true [.mk .set "inputs:".toList [] [] [], at_ ":~"],
   .cls "pgm".toList false [use "" "_obj" [dev [.mk .set "tpl:".toList [] [] [at_ "::ptn"], use "input:" "_in_sec" [at_ "nil"]]]],
   .op "now".toList [] ":ts".toList,
   .fn "eject".toList []]

def nb (s : String) : Member := ⟨.number, s.toList, [], .cls⟩
def ts (s : String) : Member := ⟨.timestamp, s.toList, [], .cls⟩

theorem nb_leaf (root : List Tree) (s : String) (h : ':' ∉ s.toList) :
    Leaf root (.mk .atom [] (s.toList ++ ':' :: "nb".toList) [] []) (nb s) :=
  Leaf.builtin (type := "nb".toList) (by simp [builtin]) h

theorem ts_leaf (root : List Tree) (s : String) (h : ':' ∉ s.toList) :
    Leaf root (.mk .atom [] (s.toList ++ ':' :: "ts".toList) [] []) (ts s) :=
  Leaf.builtin (type := "ts".toList) (by simp [builtin]) h

theorem fact_means (root : List Tree) :
    Means root (templatesOf (std.take 2)) false [] [use "" "_fact" [at_ "nil"]]
      [[.leaf (anyMember "obj"), .leaf (ts "after"), .leaf (nb "psln_thr")]] := by
  refine Means.base (us := []) (us' := []) (ws := [[]])
    (xs := [[.leaf (anyMember "obj"), .leaf (ts "after"), .leaf (nb "psln_thr")]])
    (body := use "" "_fact" [use "" "_obj" [dev [at_ "obj:", at_ "after:ts", at_ ":~"]]]) rfl
    (Means.nothing Means.done) ?_ Means.done
  refine Means.base (us := [[]]) (us' := []) (ws := [[.leaf (anyMember "obj"), .leaf (ts "after")]])
    (xs := [[.leaf (anyMember "obj"), .leaf (ts "after")], [.leaf (nb "psln_thr")]])
    (body := use "" "_obj" [at_ ":~", at_ "psln_thr:nb"]) rfl ?_ ?_ Means.done
  · refine Means.several (us := [[]]) (us' := []) (ws := [[.leaf (anyMember "obj")], [.leaf (ts "after")], []]) ?_ Means.done
    exact Means.leaf (any_leaf root "obj" (by decide)) (Means.leaf (ts_leaf root "after" (by decide)) (Means.place Means.done))
  · exact Means.place (Means.leaf (nb_leaf root "psln_thr" (by decide)) Means.done)

theorem std_defines {cmd : Name} (h : Defines (std.map Line.tree) cmd) :
    cmd ∈ ["_obj".toList, "_fact".toList, "fact".toList, "_in_sec[]".toList, "pgm".toList] := by
  obtain ⟨t, ht, _, hc, s, more, hs, rfl⟩ := h
  simp only [std, List.map_cons, List.map_nil, List.mem_cons, List.not_mem_nil, or_false] at ht
  rcases ht with rfl | rfl | rfl | rfl | rfl | rfl | rfl
  · cases hs; decide
  · cases hs; decide
  · cases hs; decide
  · cases hs; decide
  · cases hs; decide
  · exact absurd hc (by decide)
  · exact absurd hc (by decide)

theorem pgm_means : Means (std.map Line.tree) (templatesOf (std.take 4)) false []
    [use "" "_obj" [dev [.mk .set "tpl:".toList [] [] [at_ "::ptn"], use "input:" "_in_sec" [at_ "nil"]]]]
    [[.leaf ⟨.set, "tpl".toList, "ptn".toList, .expression⟩,
      .sub "input".toList [.leaf ⟨.set, "inputs".toList, [], .cls⟩], .leaf (nb "psln_thr")]] := by
  refine Means.base (us := []) (us' := []) (ws := [[.leaf ⟨.set, "tpl".toList, "ptn".toList, .expression⟩,
      .sub "input".toList [.leaf ⟨.set, "inputs".toList, [], .cls⟩]]])
    (xs := [[.leaf ⟨.set, "tpl".toList, "ptn".toList, .expression⟩,
      .sub "input".toList [.leaf ⟨.set, "inputs".toList, [], .cls⟩]], [.leaf (nb "psln_thr")]])
    (body := use "" "_obj" [at_ ":~", at_ "psln_thr:nb"]) rfl ?_ ?_ Means.done
  · refine Means.several (us := []) (us' := []) (ws := [[.leaf ⟨.set, "tpl".toList, "ptn".toList, .expression⟩],
      [.sub "input".toList [.leaf ⟨.set, "inputs".toList, [], .cls⟩]]]) ?_ Means.done
    refine Means.leaf (Leaf.objects (name := "tpl".toList) (type := "ptn".toList) (fun h => ?_) (by decide) (by decide)) ?_
    · exact absurd (std_defines h) (by decide)
    · exact Means.inst (us := []) (us' := []) (ws := [[]]) (xs := [[.leaf ⟨.set, "inputs".toList, [], .cls⟩], []])
        (name := "input".toList) (body := use "" "_in_sec[]" [.mk .set "inputs:".toList [] [] [], at_ ":~"]) rfl
        (Means.nothing Means.done)
        (Means.leaf (Leaf.set (name := "inputs".toList)) (Means.place Means.done)) Means.done
  · exact Means.place (Means.leaf (nb_leaf _ "psln_thr" (by decide)) Means.done)

theorem std_split {P : List Line → Line → Prop} (h0 : P [] (std[0]'(by decide)))
    (h1 : P (std.take 1) (std[1]'(by decide))) (h2 : P (std.take 2) (std[2]'(by decide)))
    (h3 : P (std.take 3) (std[3]'(by decide))) (h4 : P (std.take 4) (std[4]'(by decide)))
    (h5 : P (std.take 5) (std[5]'(by decide))) (h6 : P (std.take 6) (std[6]'(by decide))) :
    ∀ d l more, std = d ++ l :: more → P d l := by
  intro d l more h
  match d, h with
  | [], h => cases h; exact h0
  | [_], h => cases h; exact h1
  | [_, _], h => cases h; exact h2
  | [_, _, _], h => cases h; exact h3
  | [_, _, _, _], h => cases h; exact h4
  | [_, _, _, _, _], h => cases h; exact h5
  | [_, _, _, _, _, _], h => cases h; exact h6
  | _ :: _ :: _ :: _ :: _ :: _ :: _ :: d, h =>
    have := congrArg List.length h
    simp [std] at this

/-- The definitions above meet the hypotheses; a program has three members, the second being a set with one. -/
theorem C90_nonvacuous : Distinct std ∧ (∀ l ∈ std, l.Proper) ∧
    (∀ d l more, std = d ++ l :: more → l.Meant (std.map Line.tree) (templatesOf d)) ∧
    (∀ d l more, std = d ++ l :: more → l.Good (templatesOf d)) ∧
    ∃ a c d, init 20 0 (std.map Line.tree) = some a ∧ a.reg.classes "pgm".toList = some c ∧
      c.members = [⟨.set, "tpl".toList, "ptn".toList, .expression⟩, ⟨.set, "input".toList, "_in_sec0".toList, .cls⟩,
        nb "psln_thr"] ∧
      a.reg.classes "_in_sec0".toList = some d ∧ d.members = [⟨.set, "inputs".toList, [], .cls⟩] := by
  refine ⟨⟨by decide, fun n as h => ?_⟩, ?_, ?_, ?_, ⟨_, _, _, rfl, rfl, rfl, rfl, rfl⟩⟩
  · have hn : n = "_in_sec".toList := by
      simp only [std, List.mem_cons, Line.template.injEq, reduceCtorEq, List.not_mem_nil, or_false, false_or, Bool.true_eq_false,
        false_and, and_false] at h
      exact h.1
    subst hn
    refine ⟨fun c hc => ?_, fun m hm i he => ?_⟩
    · obtain rfl : 'c' = c := Option.some.inj hc
      decide
    · have hm' : m ∈ ["xpr".toList, "type".toList, "fact".toList, "pgm".toList, "now".toList, "eject".toList] := hm
      have : m.head? = some '_' := by rw [he]; rfl
      simp only [List.mem_cons, List.not_mem_nil, or_false] at hm'
      rcases hm' with rfl | rfl | rfl | rfl | rfl | rfl <;> exact absurd this (by decide)
  · intro l hl
    simp only [std, List.mem_cons, List.not_mem_nil, or_false] at hl
    rcases hl with rfl | rfl | rfl | rfl | rfl | rfl | rfl
    · exact ⟨by decide, by decide⟩
    · exact ⟨by decide, by decide⟩
    · exact ⟨by decide, by decide, fun _ => by simp⟩
    · exact ⟨by decide, by decide⟩
    · exact ⟨by decide, by decide, fun _ => by simp⟩
    · exact rfl
    · trivial
  · exact std_split trivial trivial ⟨_, fact_means _⟩ trivial ⟨_, pgm_means⟩ ⟨[], Means.done⟩ trivial
  · refine std_split trivial trivial ?_ trivial ?_ Good.done trivial
    · exact Good.base (body := use "" "_fact" [use "" "_obj" [dev [at_ "obj:", at_ "after:ts", at_ ":~"]]]) rfl rfl
        (.simple (Or.inl rfl) .done)
        (Good.base (body := use "" "_obj" [at_ ":~", at_ "psln_thr:nb"]) rfl rfl
          (.several (.simple (Or.inl rfl) (.simple (Or.inl rfl) (.simple (Or.inl rfl) .done))) .done)
          (.simple (Or.inl rfl) (.simple (Or.inl rfl) .done)) .done) .done
    · exact Good.base (body := use "" "_obj" [at_ ":~", at_ "psln_thr:nb"]) rfl rfl
        (.several (.simple (Or.inr rfl)
          (Good.inst (body := use "" "_in_sec[]" [.mk .set "inputs:".toList [] [] [], at_ ":~"]) (n := "_in_sec".toList) rfl rfl rfl
            (.simple (Or.inl rfl) .done) (.simple (Or.inr rfl) (.simple (Or.inl rfl) .done)) .done)) .done)
        (.simple (Or.inl rfl) (.simple (Or.inl rfl) .done)) .done

/-! ## C89: opcodes -/

/-- C89, in full: after reading any file, what is filed under opcodes and what is found under names agree. -/
def C89_full : Prop := ∀ f id root a, init f id root = some a → Agree a

/-- C89, when no name is used twice and there are opcodes for all; and all that is defined is filed. -/
theorem C89_opcodes_partial (f id : Nat) (root : List Tree) (a : All) (h : init f id root = some a) (hf : Fits a) :
    (Apart a → Agree a) ∧
    ∀ ls : List Line, root = ls.map Line.tree → (∀ l ∈ ls, l.Proper) →
      (∀ n b as, Line.cls n b as ∈ ls → n ∈ a.reg.names.drop 2) ∧ (∀ n as ty, Line.op n as ty ∈ ls → n ∈ a.operators) ∧
      ∀ n as, Line.fn n as ∈ ls → n ∈ a.functions := by
  obtain ⟨cs, os, fs, ht, hall⟩ := all_trail root f root (start id) a h (trail_start id)
  simp only [List.nil_append] at ht
  refine ⟨fun hn => agree_of_trail ht hn hf, ?_⟩
  rintro ls rfl hp
  have hnames : a.reg.names.drop 2 = cs.map Class.name := by
    rcases ht.reg.table with ⟨_, _, t3, _⟩ | t
    · rw [t3]
      cases cs with
      | nil => rfl
      | cons c cs => rfl
    · have := hf.1; omega
  refine ⟨fun n b as hl => ?_, fun n as ty hl => ?_, fun n as hl => ?_⟩
  · obtain ⟨h1, h2, _⟩ := hp _ hl
    obtain ⟨c, hc, hn⟩ := (hall _ (List.mem_map_of_mem hl) rfl _ _ rfl).1 rfl
      (by
        cases hb : templates as with
        | false => exact hb
        | true => have := (templates_iff as).1 hb; omega)
    rw [hnames]
    refine List.mem_map.2 ⟨c, hc, hn.trans ?_⟩
    exact className_written h1 b
  · obtain ⟨c, hc, hn⟩ := (hall _ (List.mem_map_of_mem hl) rfl _ _ rfl).2.1 rfl
    rw [ht.ops]
    exact List.mem_map.2 ⟨c, hc, hn⟩
  · obtain ⟨c, hc, hn⟩ := (hall _ (List.mem_map_of_mem hl) rfl _ _ rfl).2.2 rfl
    rw [ht.fns]
    exact List.mem_map.2 ⟨c, hc, hn⟩

/-- A class and an operator of the same name. -/
def clash : List Tree := [(Line.cls "f".toList false [at_ "x:"]).tree, (Line.op "f".toList [at_ "a:nb"] ":nb".toList).tree]

/-! ### More classes than opcodes -/

/-- The definition of class number `i`. -/
def number (i : Nat) : Tree := (Line.cls ('c' :: digits i) false [at_ "x:"]).tree

theorem number_free {s : Name} {c : Char} (hc : c ∈ s) (h1 : c ≠ 'c') (h2 : c.isDigit = false) (i : Nat) :
    has s ('c' :: digits i) = false := by
  cases h : has s ('c' :: digits i) with
  | false => rfl
  | true =>
    have := ((has_iff _ _).1 h).subset hc
    rcases List.mem_cons.1 this with h | h
    · exact absurd h h1
    · rw [digits_digit h] at h2; cases h2

theorem number_ne {s : Name} {c : Char} (hc : c ∈ s) (h1 : c ≠ 'c') (h2 : c.isDigit = false) (i : Nat) :
    'c' :: digits i ≠ s := by
  intro h
  rw [← h] at hc
  rcases List.mem_cons.1 hc with h | h
  · exact absurd h h1
  · rw [digits_digit h] at h2; cases h2

theorem number_define (root : List Tree) (a : All) (i : Nat) : define root 5 a (number i) =
    some { a with reg := a.reg.add ⟨Atom.object a.reg.opcode 1, 'c' :: digits i, [anyMember "x"], .any⟩ } := by
  have e1 : has "[]".toList ('c' :: digits i) = false := number_free (c := '[') (by decide) (by decide) (by decide) i
  have e2 : className ('c' :: digits i) = 'c' :: digits i := by unfold className; rw [e1]; rfl
  have e3 : classAtom ('c' :: digits i) a.reg.opcode 1 = Atom.object a.reg.opcode 1 := by
    unfold classAtom
    rw [if_neg (number_ne (c := 'g') (by decide) (by decide) (by decide) i),
      if_neg (number_ne (c := 'g') (by decide) (by decide) (by decide) i),
      if_neg (number_ne (c := 'g') (by decide) (by decide) (by decide) i),
      if_neg (number_ne (c := 's') (by decide) (by decide) (by decide) i),
      if_neg (number_ne (c := 'm') (by decide) (by decide) (by decide) i),
      number_free (c := 'm') (by decide) (by decide) (by decide) i]
    rfl
  show defineClass root 5 a (.mk .struct [] ('c' :: digits i) [] [at_ "x:"]) = _
  unfold defineClass
  have e4 : getMembers root a.tpl 5 false [] a.reg [at_ "x:"] = some ([anyMember "x"], [], a.reg) := rfl
  simp only [Tree.cmd, Tree.args, e1, e2, e4, Option.bind_some]
  have e5 : BitVec.ofNat 8 [anyMember "x"].length = 1 := rfl
  rw [e5, e3]
  rfl

theorem numbers (root : List Tree) : ∀ (is : List Nat) (a : All) (cs : List Class), TrailAll a cs [] [] →
    a.reg.byOpcode.length < 65536 → cs.length + is.length + 2 < 65536 →
    ∃ a' cs', (is.map number).foldlM (define root 5) a = some a' ∧ TrailAll a' cs' [] [] ∧
      cs'.map Class.name = cs.map Class.name ++ is.map (fun i => 'c' :: digits i) ∧ a'.reg.byOpcode.length < 65536
  | [], a, cs, h, hl, _ => ⟨a, cs, rfl, h, by simp, hl⟩
  | i :: is, a, cs, h, hl, hb => by
    simp only [List.length_cons] at hb
    let c : Class := ⟨Atom.object a.reg.opcode 1, 'c' :: digits i, [anyMember "x"], .any⟩
    have hk : IsClass c.atom a.reg.opcode := ⟨.object, 1, Atom.load_store (.struct_ .object a.reg.opcode 1), by simp⟩
    have ht : TrailAll { a with reg := a.reg.add c } (cs ++ [c]) [] [] :=
      ⟨h.reg.add c hk, h.ops, h.opsAt, h.fns, h.fnsAt⟩
    have hlen : (a.reg.add c).byOpcode.length < 65536 := by
      rcases h.reg.table with ⟨t1, t2, _⟩ | t
      · simp only [Reg.add, put_length, t2, BitVec.toNat_ofNat]
        omega
      · omega
    obtain ⟨a', cs', h1, h2, h3, h4⟩ := numbers root is _ (cs ++ [c]) ht hlen
      (by simp only [List.length_append, List.length_singleton]; omega)
    refine ⟨a', cs', ?_, h2, ?_, h4⟩
    · rw [List.map_cons, List.foldlM_cons, number_define]; exact h1
    · rw [h3]; simp [c]

/-- 4095 classes with different names: the last one has the opcode of `xpr`. -/
theorem C89_too_many : ∃ root a, init 5 0 root = some a ∧ Apart a ∧ ¬ Agree a ∧ root.length = 4095 := by
  obtain ⟨a, cs, h1, h2, h3, h4⟩ := numbers ((List.range 4095).map number) (List.range 4095) (start 0) [] (trail_start 0)
    (by simp [start]) (by simp)
  simp only [List.map_nil, List.nil_append] at h3
  have hlen : cs.length = 4095 := by
    have := congrArg List.length h3
    simpa using this
  obtain ⟨c, hc⟩ : ∃ c, cs[4094]? = some c := ⟨cs[4094]'(by omega), List.getElem?_eq_getElem (by omega)⟩
  rcases h2.reg.table with ⟨_, _, t3, t4, t5⟩ | t
  swap
  · omega
  refine ⟨_, a, h1, ?_, fun hagree => ?_, by simp⟩
  · have hdrop : a.reg.names.drop 2 = cs.map Class.name := by
      rw [t3]
      cases cs with
      | nil => rfl
      | cons c cs => rfl
    unfold Apart
    rw [hdrop, h2.ops, h2.fns, h3]
    simp only [List.map_nil, List.append_nil]
    refine List.Nodup.map (fun i j h => digits_inj (List.cons.inj h).2) List.nodup_range
  · have hat : a.reg.byOpcode[4096]? = some c := by
      rw [t4]
      cases cs with
      | nil => simp at hlen
      | cons x cs => simpa [pad] using hc
    obtain ⟨_, _, k, op, n, hk, _, hop⟩ := hagree.cls 4096 c (by omega) hat
    obtain ⟨k', n', hk', _⟩ := t5 4094 c hc
    rw [hk] at hk'
    obtain ⟨_, rfl, _⟩ : k = k' ∧ op = Atom.low12 (BitVec.ofNat 16 (4094 + 2)) ∧ n = n' := by simpa using hk'
    rw [Atom.low12_toNat, BitVec.toNat_ofNat] at hop
    omega

/-- The class `f` filed under opcode 2 is not found under its name: the operator is. -/
theorem C89_opcodes_violated : ¬ C89_full ∧ ∃ a, init 5 0 clash = some a ∧ a.reg.names[2]? = some "f".toList ∧
    (a.reg.byOpcode[2]?).map Class.members = some [anyMember "x"] ∧
    (a.reg.classes "f".toList).map Class.members = some [nb "a"] := by
  have w : ∃ a, init 5 0 clash = some a ∧ a.reg.names[2]? = some "f".toList ∧
      (a.reg.byOpcode[2]?).map Class.members = some [anyMember "x"] ∧
      (a.reg.classes "f".toList).map Class.members = some [nb "a"] := ⟨_, rfl, rfl, rfl, rfl⟩
  refine ⟨fun h => ?_, w⟩
  obtain ⟨root, a, h1, _, h2, _⟩ := C89_too_many
  exact h2 (h _ _ _ _ h1)

/-- The definitions of the example above have two classes, an instance, an operator and a function. -/
theorem C89_nonvacuous : ∃ a, init 20 0 (std.map Line.tree) = some a ∧ Apart a ∧ Fits a ∧
    a.reg.names = [[], [], "fact".toList, "_in_sec0".toList, "pgm".toList] ∧ a.operators = ["now".toList] ∧
    a.functions = ["eject".toList] ∧ Agree a := by
  have w : ∃ a, init 20 0 (std.map Line.tree) = some a ∧
      a.reg.names = [[], [], "fact".toList, "_in_sec0".toList, "pgm".toList] ∧ a.reg.byOpcode.length = 5 ∧
      a.operators = ["now".toList] ∧ a.functions = ["eject".toList] := ⟨_, rfl, rfl, rfl, rfl, rfl⟩
  obtain ⟨a, h1, h2, h3, h4, h5⟩ := w
  have hf : Fits a := ⟨by rw [h3]; decide, by rw [h4]; decide, by rw [h5]; decide⟩
  have hn : Apart a := by unfold Apart; rw [h2, h4, h5]; decide
  exact ⟨a, h1, hn, hf, h2, h4, h5, (C89_opcodes_partial 20 0 _ a h1 hf).1 hn⟩

end Verif.Classes
