import Verif.Compile.Objects

/-!
# C91: compiling keeps the meaning of a source
-/
namespace Verif.Compile
open Verif.Macro Verif.Classes Verif.Atom

/-- A source compiles to objects that read as what it means. -/
def Compiles (W : World) (src : List Source) (ts : List ObjTree) : Prop :=
  ∃ f0, ∀ f ≥ f0, ∃ objs, compile f W.classes W.sys W.allow src = some objs ∧ List.Forall₂ ObjReads objs ts

/-- **C91** in full: every source that means something compiles, whatever its classes, and its code reads as what it
means. -/
def C91_full : Prop :=
  ∀ (W : World) (src : List Source) (ts : List ObjTree),
    SrcMeans .none W (fun _ => none) 0 src ts → Compiles W src ts

instance (t : Top) : Decidable t.fits := inferInstanceAs (Decidable (_ ≤ _))

/-- The limits: characters of 7 bits; no name of a variable or of a function before `]`; no label of an operator that
returns a set or a class where anything may stand, nor where an expression of one class must stand; in a set
that a member reads by a class, no member uses that class in another way. -/
def Limits.tame : Limits where
  str s := ∀ b ∈ s, b.toNat < 128
  close b := b = false
  lbl K c := match K with
    | .any => c.type ≠ .set ∧ c.type ≠ .cls
    | .expr (some _) => False
    | _ => True
  use m us := ∀ q ∈ us, q.1 = m.cls → q.2 = m.iter

theorem tame_tame : Tame Limits.tame :=
  ⟨⟨fun _ h => h, fun _ h => h⟩, fun _ _ h => h, fun _ h => h, fun _ _ h => h⟩

/-- **C91**, proved: it holds within the limits. -/
theorem C91_compiled_partial (W : World) (src : List Source) (ts : List ObjTree)
    (h : SrcMeans Limits.tame W (fun _ => none) 0 src ts) : Compiles W src ts := by
  obtain ⟨f0, h1⟩ := source_ok tame_tame h (fun x o t hx => by cases hx)
  exact ⟨f0, fun f hf => h1 f hf start rfl rfl⟩

/-! ## Sources that do not compile -/

/-- Trees: `(node kids:[::node] parent:node)`. -/
def nodeC : Class := ⟨object 1 2, "node".toList,
  [⟨.set, "kids".toList, "node".toList, .expression⟩, ⟨.expression, "parent".toList, "node".toList, .cls⟩], .any⟩

/-- Only that class. -/
def nodeW : World where
  classes x := if x = "node".toList then some nodeC else none
  sys x := if x = "node".toList then some nodeC else none
  allow := false
  sub x c h := by
    by_cases hx : x = "node".toList
    · simp only [hx, if_true, Option.some.injEq] at h ⊢; exact ⟨h, by rw [← h]; rfl⟩
    · simp only [hx, if_false, reduceCtorEq] at h
  view c v h := by
    have h1 : ¬ "grp_view".toList = "node".toList := by decide
    have h2 : ¬ "pgm_view".toList = "node".toList := by decide
    have h3 : ¬ "view".toList = "node".toList := by decide
    simp only [viewsOf, h1, h2, h3, if_false, ite_self, reduceCtorEq] at h

/-- `(node [(node |[] nil)] nil)`. -/
def nodeSrc : List Source :=
  [⟨none, "node".toList, [.set none [.expr none "node".toList [.empty, .nilw .nil]], .nilw .nil], none⟩]

def nodeTree : List ObjTree :=
  [⟨⟨nodeC.atom, [.node none (Atom.set 1) [.node none nodeC.atom [.node none (Atom.set 0) [], .word Atom.nil]], .word Atom.nil]⟩, []⟩]

set_option smartUnfolding false in
set_option maxHeartbeats 1000000 in
theorem node_none (f : Nat) : compile (f + 30) nodeW.classes nodeW.sys nodeW.allow nodeSrc = none := by
  with_unfolding_all rfl

theorem node_means : SrcMeans .none nodeW (fun _ => none) 0 nodeSrc nodeTree := by
  have hk1 : kindOf nodeW.classes (.mem ⟨.set, "kids".toList, "node".toList, .expression⟩) = some (.set (some (nodeC, .expression))) := rfl
  have hk2 : kindOf nodeW.classes (.mem ⟨.expression, "parent".toList, "node".toList, .cls⟩) = some (.expr (some nodeC)) := rfl
  have hk3 : kindOf nodeW.classes (.ex nodeC) = some (.expr (some nodeC)) := rfl
  have hc : IsClass (bodyLang nodeW (fun _ => none) nodeC [] []) "node".toList nodeC :=
    ⟨rfl, Or.inr rfl, rfl⟩
  refine .cons (fun _ h => by cases h) ?_ .nil
  refine .mk (V := []) (G := []) (c := nodeC) (D := []) rfl rfl (by decide) (by decide) (by decide) rfl ?_ (by decide) rfl
  · refine Means.setE hk1 (by decide) (by decide) (fun _ _ => trivial) ?_ (.leaf hk2 (.nilw rfl) .nil)
    exact Means.expr hk3 hc ⟨rfl, rfl⟩ trivial rfl (.leaf hk1 (.empty trivial) (.leaf hk2 (.nilw rfl) .nil)) .nil

/-- Models that only have variables: `(mdl [x])`. -/
def mdlC : Class := ⟨model 2 1, "mdl".toList, [⟨.set, "args".toList, [], .cls⟩], .any⟩

/-- Only that class. -/
def mdlW : World where
  classes x := if x = "mdl".toList then some mdlC else none
  sys x := if x = "mdl".toList then some mdlC else none
  allow := false
  sub x c h := by
    by_cases hx : x = "mdl".toList
    · simp only [hx, if_true, Option.some.injEq] at h ⊢; exact ⟨h, by rw [← h]; rfl⟩
    · simp only [hx, if_false, reduceCtorEq] at h
  view c v h := by
    have h1 : ¬ "grp_view".toList = "mdl".toList := by decide
    have h2 : ¬ "pgm_view".toList = "mdl".toList := by decide
    have h3 : ¬ "view".toList = "mdl".toList := by decide
    simp only [viewsOf, h1, h2, h3, if_false, ite_self, reduceCtorEq] at h

/-- `(mdl [x: x])`. -/
def mdlSrc : List Source := [⟨none, "mdl".toList, [.set none [.var ['x'], .name ['x'] true]], none⟩]

def mdlTree : List ObjTree := [⟨⟨mdlC.atom, [.node none (Atom.set 2) [.var ['x'], .var ['x']]]⟩, []⟩]

theorem mdl_means : SrcMeans .none mdlW (fun _ => none) 0 mdlSrc mdlTree := by
  refine .cons (fun _ h => by cases h) ?_ .nil
  refine .mk (V := [['x']]) (G := []) (c := mdlC) (D := [['x']]) rfl rfl (by decide) (by decide) (by decide) rfl ?_ (by decide) rfl
  · refine Means.setU rfl (Or.inr rfl) (by decide) ?_ .nil
    exact .leaf rfl (.var rfl rfl rfl List.mem_cons_self) (.leaf rfl (.nameVar List.mem_cons_self trivial) .nil)

set_option smartUnfolding false in
set_option maxHeartbeats 1000000 in
theorem mdl_none (f : Nat) : compile (f + 30) mdlW.classes mdlW.sys mdlW.allow mdlSrc = none := by
  with_unfolding_all rfl

/-- `(obj "é")`. -/
def objC : Class := ⟨object 3 1, "obj".toList, [⟨.string, "s".toList, [], .cls⟩], .any⟩

/-- Only that class. -/
def objW : World where
  classes x := if x = "obj".toList then some objC else none
  sys x := if x = "obj".toList then some objC else none
  allow := false
  sub x c h := by
    by_cases hx : x = "obj".toList
    · simp only [hx, if_true, Option.some.injEq] at h ⊢; exact ⟨h, by rw [← h]; rfl⟩
    · simp only [hx, if_false, reduceCtorEq] at h
  view c v h := by
    have h1 : ¬ "grp_view".toList = "obj".toList := by decide
    have h2 : ¬ "pgm_view".toList = "obj".toList := by decide
    have h3 : ¬ "view".toList = "obj".toList := by decide
    simp only [viewsOf, h1, h2, h3, if_false, ite_self, reduceCtorEq] at h

def objSrc : List Source := [⟨none, "obj".toList, [.str [0xC3, 0xA9]], none⟩]

def objTree : List ObjTree := [⟨⟨objC.atom, [.str [0xC3, 0xA9]]⟩, []⟩]

theorem obj_means : SrcMeans .none objW (fun _ => none) 0 objSrc objTree := by
  refine .cons (fun _ h => by cases h) ?_ .nil
  refine .mk (V := []) (G := []) (c := objC) (D := []) rfl rfl (by decide) (by decide) (by decide) rfl ?_ (by decide) rfl
  exact .leaf rfl (.str rfl (by decide) trivial) .nil

set_option smartUnfolding false in
set_option maxHeartbeats 1000000 in
theorem obj_some (f : Nat) : compile (f + 30) objW.classes objW.sys objW.allow objSrc =
    some [⟨[objC.atom, iPointer 2, Atom.string 2, 0xFFFFFFC3], [], []⟩] := by
  with_unfolding_all rfl

theorem obj_wrong (H : List Name) : ¬ Reads [objC.atom, iPointer 2, Atom.string 2, 0xFFFFFFC3] H [] 1 (.str [0xC3, 0xA9]) := by
  intro h
  cases h with
  | @str _ _ j hj hij h hl ha hs =>
    have ha' : [objC.atom, iPointer 2, Atom.string 2, 0xFFFFFFC3][j]? = some (Atom.string 2) := ha
    match j, ha', hs with
    | 0, ha', _ => exact absurd ha' (by decide)
    | 1, ha', _ => exact absurd ha' (by decide)
    | 2, _, hs =>
      obtain ⟨w, hw, hb⟩ := hs 1 0xA9 rfl
      have hw' : some (0xFFFFFFC3 : Word) = some w := hw
      cases hw'
      exact absurd hb (by decide)
    | 3, ha', _ => exact absurd ha' (by decide)
    | k + 4, ha', _ => exact absurd ha' (by simp)

/-- **C91**, violated: the members of a class change how another member of it uses a class that they share, and a name
of a variable before `]` is not read, and characters beyond ASCII spill over those that follow. -/
theorem C91_compiled_violated : ¬ C91_full ∧ ¬ Compiles nodeW nodeSrc nodeTree ∧ ¬ Compiles mdlW mdlSrc mdlTree ∧
    ¬ Compiles objW objSrc objTree := by
  have h1 : ¬ Compiles nodeW nodeSrc nodeTree := by
    rintro ⟨f0, h⟩
    obtain ⟨objs, ho, _⟩ := h (f0 + 30) (by omega)
    rw [node_none] at ho
    cases ho
  have h2 : ¬ Compiles mdlW mdlSrc mdlTree := by
    rintro ⟨f0, h⟩
    obtain ⟨objs, ho, _⟩ := h (f0 + 30) (by omega)
    rw [mdl_none] at ho
    cases ho
  have h3 : ¬ Compiles objW objSrc objTree := by
    rintro ⟨f0, h⟩
    obtain ⟨objs, ho, hr⟩ := h (f0 + 30) (by omega)
    rw [obj_some] at ho
    cases ho
    cases hr with
    | cons hr _ =>
      obtain ⟨H, _, ht, _⟩ := hr
      exact obj_wrong H (ht.2.2 0 _ rfl)
  exact ⟨fun h => h1 (h _ _ _ node_means), h1, h2, h3⟩

/-! ## A source within the limits -/

/-- `(obj "ab" 10us)`, `(p x ::)`, `(q (p x ::) [(p x ::)])`, `(add x 1)`, `(mdl [...] (...) n)`, and the views of
models; the class `q` uses `p` in two ways. -/
def exC : Name → Option Class := fun x =>
  if x = "obj".toList then some ⟨object 3 2, x, [⟨.string, "s".toList, [], .cls⟩, ⟨.any, "d".toList, [], .cls⟩], .any⟩
  else if x = "p".toList then
    some ⟨object 4 3, x, [⟨.any, "a".toList, [], .cls⟩, ⟨.any, "b".toList, [], .cls⟩, ⟨.any, "c".toList, [], .cls⟩], .any⟩
  else if x = "q".toList then
    some ⟨object 7 2, x, [⟨.expression, "f".toList, "p".toList, .cls⟩, ⟨.set, "g".toList, "p".toList, .expression⟩], .any⟩
  else if x = "mdl".toList then
    some ⟨model 2 3, x, [⟨.set, "v".toList, [], .cls⟩, ⟨.expression, "f".toList, "q".toList, .cls⟩, ⟨.number, "n".toList, [], .cls⟩], .any⟩
  else none

def exA : Name → Option Class := fun x =>
  if x = "add".toList then
    some ⟨operator 5 2, x, [⟨.number, "l".toList, [], .cls⟩, ⟨.number, "r".toList, [], .cls⟩], .number⟩
  else if x = "pgm_view".toList then
    some ⟨sSet 6 2, x, [⟨.number, "s".toList, [], .cls⟩, ⟨.any, "o".toList, [], .cls⟩], .any⟩
  else exC x

def exW : World where
  classes := exA
  sys := exC
  allow := false
  sub x c h := by
    have hc : x = "obj".toList ∨ x = "p".toList ∨ x = "q".toList ∨ x = "mdl".toList := by
      unfold exC at h
      by_cases h1 : x = "obj".toList
      · exact Or.inl h1
      · by_cases h2 : x = "p".toList
        · exact Or.inr (Or.inl h2)
        · by_cases h3 : x = "q".toList
          · exact Or.inr (Or.inr (Or.inl h3))
          · by_cases h4 : x = "mdl".toList
            · exact Or.inr (Or.inr (Or.inr h4))
            · rw [if_neg h1, if_neg h2, if_neg h3, if_neg h4] at h; cases h
    rcases hc with rfl | rfl | rfl | rfl
    · exact ⟨h, by cases h; rfl⟩
    · exact ⟨h, by cases h; rfl⟩
    · exact ⟨h, by cases h; rfl⟩
    · exact ⟨h, by cases h; rfl⟩
  view c v h := by
    have h1 : exA "grp_view".toList = none := rfl
    have h3 : exA "view".toList = none := rfl
    simp only [viewsOf, h1, h3] at h
    split at h
    · cases h
    · split at h
      · cases h; rfl
      · cases h

deriving instance DecidableEq for View, Obj

/-- `o:(obj "ab" 10us)` and `(mdl [x: v: o] (q (p x ::) [(p v x ::)]) v:(add x 1.0)) [[1.0 o]]`. -/
def exSrc : List Source :=
  [⟨some "o".toList, "obj".toList, [.str [97, 98], .dur 10], none⟩,
   ⟨none, "mdl".toList, [.set none [.var ['x'], .var ['v'], .name "o".toList true],
      .expr none "q".toList [.expr none "p".toList [.name ['x'] false, .tail],
        .set none [.expr none "p".toList [.name ['v'] false, .name ['x'] false, .tail]]],
      .expr (some ['v']) "add".toList [.name ['x'] false, .num 0x3F800000]], some [.set none [.num 0x3F800000, .name "o".toList true]]⟩]

def exTree : List ObjTree :=
  [⟨⟨object 3 2, [.str [97, 98], .time duration 10]⟩, []⟩,
   ⟨⟨model 2 3, [.node none (Atom.set 3) [.var ['x'], .var ['v'], .obj 0],
      .node none (object 7 2) [.node none (object 4 3) [.var ['x'], .word tailWildcard, .word (wildcard 0)],
        .node none (Atom.set 1) [.node none (object 4 3) [.var ['v'], .var ['x'], .word tailWildcard]]],
      .node (some ['v']) (operator 5 2) [.var ['x'], .word (Atom.float 0x3F800000)]]⟩,
    [⟨sSet 6 2, [.word (Atom.float 0x3F800000), .obj 0]⟩]⟩]

/-- The hypotheses of `C91_compiled_partial` are met by a source with a label, a string, a time, variables, patterns
with a tail, a set of patterns, an assignment and a view that refers to an object; this is the code. -/
theorem C91_nonvacuous :
    SrcMeans Limits.tame exW (fun _ => none) 0 exSrc exTree ∧
    compile 40 exW.classes exW.sys exW.allow exSrc =
      some [⟨[object 3 2, iPointer 3, iPointer 5, Atom.string 2, 0x6261, duration, 0, 10], [], []⟩,
        ⟨[model 2 3, iPointer 4, iPointer 8, assignmentPointer 1 21,
          Atom.set 3, vlPointer 0, vlPointer 1, rPointer 0,
          object 7 2, iPointer 11, iPointer 15,
          object 4 3, vlPointer 0, tailWildcard, wildcard 0,
          Atom.set 1, iPointer 17,
          object 4 3, vlPointer 1, vlPointer 0, tailWildcard,
          operator 5 2, vlPointer 0, Atom.float 0x3F800000], [0],
         [⟨[sSet 6 2, Atom.float 0x3F800000, rPointer 0], [0]⟩]⟩] := by
  constructor
  · have hp : ∀ {g V G}, IsClass (bodyLang exW g ((exC "mdl".toList).get rfl) V G) "p".toList ((exC "p".toList).get rfl) :=
      ⟨rfl, Or.inr rfl, rfl⟩
    refine .cons (fun _ _ => rfl) ?_ (.cons (fun _ h => by cases h) ?_ .nil)
    · refine .mk (V := []) (G := []) (c := (exC "obj".toList).get rfl) (D := []) rfl rfl (by decide) (by decide) (by decide) rfl ?_ (by decide) rfl
      refine .leaf rfl (.str rfl (by decide) ?_) (.leaf rfl (.dur trivial) .nil)
      intro b hb
      revert b; decide
    · refine .mk (V := [['x'], ['v']]) (G := [0]) (c := (exC "mdl".toList).get rfl) (D := [['v'], ['x']]) rfl rfl (by decide) (by decide) (by decide) rfl ?_ (by decide) ?_
      · refine .setU rfl (Or.inr rfl) (by decide) ?_ ?_ (D1 := [['v'], ['x']])
        · refine .leaf rfl (.var rfl rfl rfl (by decide)) (.leaf rfl (.var rfl rfl rfl (by decide)) (.leaf rfl (.nameObj trivial rfl rfl (by decide)) .nil))
        · refine .expr (K := .expr (some ((exC "q".toList).get rfl))) (c := (exC "q".toList).get rfl) rfl ⟨rfl, Or.inr rfl, rfl⟩ ⟨rfl, rfl⟩ trivial rfl ?_ ?_ (D1 := [['v'], ['x']])
          · refine .exprTail (K := .expr (some ((exC "p".toList).get rfl))) (args := [.name ['x'] false]) rfl hp ⟨rfl, rfl⟩ (l := none) trivial (by decide) rfl ?_
              (.leaf rfl (.nameVar (by decide) rfl) .nil) ?_
            · intro m hm
              cases hm
              rfl
            · refine .setE (c := (exC "p".toList).get rfl) rfl (by decide) (by decide) ?_ ?_ .nil
              · intro m hm
                cases hm
                intro q hq
                exact absurd hq (by revert q; decide)
              · refine .exprTail (K := .expr (some ((exC "p".toList).get rfl))) (args := [.name ['v'] false, .name ['x'] false]) rfl hp ⟨rfl, rfl⟩ (l := none) trivial (by decide) rfl ?_
                  (.leaf rfl (.nameVar (by decide) rfl) (.leaf rfl (.nameVar (by decide) rfl) .nil)) .nil
                intro m hm
                cases hm
                rfl
          · refine .expr (K := .lit .number) (c := (exA "add".toList).get rfl) rfl ⟨rfl, Or.inl rfl, rfl⟩ (Or.inr rfl) ⟨rfl, by decide, trivial⟩ rfl ?_ .nil
            exact .leaf rfl (.nameVar (by decide) rfl) (.leaf rfl (.num rfl) .nil)
      · refine ⟨by simp, (exA "pgm_view".toList).get rfl, rfl, by decide, by decide, rfl, by decide, ?_⟩
        exact .cons rfl (.leaf rfl (.num rfl) (.leaf rfl (.nameObj trivial rfl rfl (by decide)) .nil)) (by decide) .nil
  · decide +kernel

end Verif.Compile
