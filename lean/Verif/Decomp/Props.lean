import Verif.Decomp.Objects
import Verif.Compile.Props

/-!
# C95: what is decompiled compiles to the same again
-/
namespace Verif.Decomp
open Verif.Macro Verif.Classes Verif.Atom Verif.Compile

/-- Objects are decompiled to a source that compiles to objects that read as these trees. -/
def Returns (T : Meta) (W : World) (objs : List Obj) (ts : List ObjTree) : Prop :=
  ∃ f0 src, (∀ f ≥ f0, decompile f T objs = some src) ∧ Compiles W src ts

/-- The tables of the decompiler say what the classes are called. -/
def Describes (T : Meta) (W : World) : Prop :=
  ∀ x c, W.classes x = some c →
    if getDescriptor c.atom = 0xA2 then T.functionNames[(asOpcode c.atom).toNat]? = some x
    else getDescriptor c.atom ≠ 0xC2 →
      headName T c.atom = some x ∧ ∃ r, rend T (asOpcode c.atom).toNat = some r ∧ (r = .icmd → T.inj.isSome)

/-- **C95** in full: objects that read as what a source means are decompiled to a source that compiles to objects that read
the same. Times are relative to zero, numbers are written in full. -/
def C95_full : Prop :=
  ∀ (T : Meta) (W : World) (src : List Source) (ts : List ObjTree) (objs : List Obj),
    T.ref = 0 → (∀ b, T.shown b = some b) → Describes T W → Labelled T W src.length →
    SrcMeans Limits.tame W (fun _ => none) 0 src ts → List.Forall₂ ObjReads objs ts → Returns T W objs ts

/-- **C95**, proved: it holds of sources without what `plain` leaves out, however numbers are written. -/
theorem C95_decompiled_partial (T : Meta) (W : World) (src : List Source) (ts : List ObjTree) (objs : List Obj)
    (hT : T.ref = 0) (hL : Labelled T W src.length) (h : SrcMeans Limits.tame W (fun _ => none) 0 src ts)
    (hp : plainSrc T W (fun _ => none) 0 src) (hr : List.Forall₂ ObjReads objs ts) : Returns T W objs ts := by
  obtain ⟨src', ts', m, h1, h2, h3⟩ := source_shown (g' := fun _ => none) (fl := ⟨false, false, true⟩) hT rfl hL h hr hp (by omega)
    ⟨fun _ _ _ h => (nomatch h), fun _ _ h => nomatch h⟩ rfl rfl
  refine ⟨m, src', h1, ?_⟩
  obtain ⟨f0, h4⟩ := C91_compiled_partial W src' ts' h2
  refine ⟨f0, fun f hf => ?_⟩
  obtain ⟨objs', h5, h6⟩ := h4 f hf
  refine ⟨objs', h5, ?_⟩
  have key : ∀ {objs' : List Obj} {ts' ts : List ObjTree}, List.Forall₂ (fun t' t => ∀ b, ObjReads b t' → ObjReads b t) ts' ts →
      List.Forall₂ ObjReads objs' ts' → List.Forall₂ ObjReads objs' ts := by
    intro objs' ts' ts h
    induction h generalizing objs' with
    | nil => intro h; cases h; exact .nil
    | cons h _ ih => intro h; cases h with
      | cons h2 h3 => exact .cons (h _ h2) (ih h3)
  exact key h3 h6

/-- What a source compiles to, decompiled, compiles to what reads the same. -/
theorem C95_compiled_partial (T : Meta) (W : World) (src : List Source) (ts : List ObjTree)
    (hT : T.ref = 0) (hL : Labelled T W src.length) (h : SrcMeans Limits.tame W (fun _ => none) 0 src ts)
    (hp : plainSrc T W (fun _ => none) 0 src) :
    ∃ f0, ∀ f ≥ f0, ∃ objs, compile f W.classes W.sys W.allow src = some objs ∧ List.Forall₂ ObjReads objs ts ∧ Returns T W objs ts := by
  obtain ⟨f0, h1⟩ := C91_compiled_partial W src ts h
  refine ⟨f0, fun f hf => ?_⟩
  obtain ⟨objs, h2, h3⟩ := h1 f hf
  exact ⟨objs, h2, h3, C95_decompiled_partial T W src ts objs hT hL h hp h3⟩

/-! ## Sources that do not come back -/

/-- `(t x)` and `(mdl a b c)`, of anything. -/
def tC : Class := ⟨object 1 1, "t".toList, [⟨.any, "x".toList, [], .cls⟩], .any⟩
def mC : Class := ⟨model 2 3, "mdl".toList, [⟨.any, "a".toList, [], .cls⟩, ⟨.any, "b".toList, [], .cls⟩, ⟨.any, "c".toList, [], .cls⟩], .any⟩

def tA : Name → Option Class := fun x => if x = "t".toList then some tC else if x = "mdl".toList then some mC else none

theorem tA_some {x : Name} {c : Class} (h : tA x = some c) : x = "t".toList ∧ c = tC ∨ x = "mdl".toList ∧ c = mC := by
  unfold tA at h
  by_cases h1 : x = "t".toList
  · rw [if_pos h1] at h; cases h; exact .inl ⟨h1, rfl⟩
  · by_cases h2 : x = "mdl".toList
    · rw [if_neg h1, if_pos h2] at h; cases h; exact .inr ⟨h2, rfl⟩
    · rw [if_neg h1, if_neg h2] at h; cases h

def tW : World where
  classes := tA
  sys := tA
  allow := false
  sub x c h := ⟨h, by rcases tA_some h with ⟨_, rfl⟩ | ⟨_, rfl⟩ <;> rfl⟩
  view c v h := by
    have h1 : tA "grp_view".toList = none := rfl
    have h2 : tA "pgm_view".toList = none := rfl
    have h3 : tA "view".toList = none := rfl
    simp only [viewsOf, h1, h2, h3, ite_self, reduceCtorEq] at h

def tT : Meta where
  classNames := [[], "t".toList]
  operatorNames := []
  functionNames := []
  byOpcode := [[], "t".toList, "mdl".toList]
  inj := none
  names k := some ('o' :: TimeText.dec k)
  ref := 0
  shown := some

theorem tT_describes : Describes tT tW := by
  intro x c h
  rcases tA_some h with ⟨rfl, rfl⟩ | ⟨rfl, rfl⟩
  · rw [if_neg (by decide)]; exact fun _ => ⟨rfl, .expr, by decide, by decide⟩
  · rw [if_neg (by decide)]; exact fun _ => ⟨by decide, .hlp, by decide, by decide⟩

theorem tT_labelled (n : Nat) : Labelled tT tW n where
  all k _ := ⟨_, rfl, rfl, fun v h => by cases h⟩
  apart j _ k _ h := by
    have h1 : 'o' :: TimeText.dec j = 'o' :: TimeText.dec k := Option.some.inj h
    have h2 := (List.cons.inj h1).2
    rw [← TimeText.value_dec j, h2, TimeText.value_dec]
  vars v := rfl

/-- `(t |ts)`, `(t |nid)` and `(mdl nil nil x:)`. -/
def tsSrc : List Source := [⟨none, "t".toList, [.nilw .ts], none⟩]
def nidSrc : List Source := [⟨none, "t".toList, [.nilw .nid], none⟩]
def newSrc : List Source := [⟨none, "mdl".toList, [.nilw .nil, .nilw .nil, .var ['x']], none⟩]

def tsTree : List ObjTree := [⟨⟨tC.atom, [.time undefinedTimestamp (BitVec.allOnes 64)]⟩, []⟩]
def nidTree : List ObjTree := [⟨⟨tC.atom, [.word undefinedNode]⟩, []⟩]
def newTree : List ObjTree := [⟨⟨mC.atom, [.word Atom.nil, .word Atom.nil, .var ['x']]⟩, []⟩]

/-- What they compile to. -/
def tsObjs : List Obj := [⟨[tC.atom, iPointer 2, undefinedTimestamp, 0xFFFFFFFF, 0xFFFFFFFF], [], []⟩]
def nidObjs : List Obj := [⟨[tC.atom, undefinedNode], [], []⟩]
def newObjs : List Obj := [⟨[mC.atom, Atom.nil, Atom.nil, vlPointer 0], [], []⟩]

theorem compiled : compile 30 tW.classes tW.sys tW.allow tsSrc = some tsObjs ∧ compile 30 tW.classes tW.sys tW.allow nidSrc = some nidObjs ∧
    compile 30 tW.classes tW.sys tW.allow newSrc = some newObjs := by decide +kernel

theorem ts_means : SrcMeans Limits.tame tW (fun _ => none) 0 tsSrc tsTree := by
  refine .cons (fun _ h => by cases h) ?_ .nil
  refine .mk (V := []) (G := []) (c := tC) (D := []) rfl rfl (by decide) (by decide) (by decide) rfl ?_ (by decide) rfl
  exact .leaf rfl (.nilw (K := .any) (n := .ts) rfl) .nil

theorem nid_means : SrcMeans Limits.tame tW (fun _ => none) 0 nidSrc nidTree := by
  refine .cons (fun _ h => by cases h) ?_ .nil
  refine .mk (V := []) (G := []) (c := tC) (D := []) rfl rfl (by decide) (by decide) (by decide) rfl ?_ (by decide) rfl
  exact .leaf rfl (.nilw (K := .any) (n := .nid) rfl) .nil

theorem new_means : SrcMeans Limits.tame tW (fun _ => none) 0 newSrc newTree := by
  refine .cons (fun _ h => by cases h) ?_ .nil
  refine .mk (V := [['x']]) (G := []) (c := mC) (D := [['x']]) rfl rfl (by decide) (by decide) (by decide) rfl ?_ (by decide) rfl
  exact .leaf rfl (.nilw (K := .any) (n := .nil) rfl) (.leaf rfl (.nilw (K := .any) (n := .nil) rfl) (.leaf rfl (.var rfl rfl rfl (by decide)) .nil))

theorem ts_reads : List.Forall₂ ObjReads tsObjs tsTree := by
  refine .cons ⟨[], .nil, ⟨rfl, by decide, fun k x h => ?_⟩, .nil⟩ .nil
  cases k with
  | zero =>
    cases h
    exact .time (j := 2) (by decide) (by decide) rfl rfl (by decide)
  | succ k => simp at h

theorem nid_reads : List.Forall₂ ObjReads nidObjs nidTree := by
  refine .cons ⟨[], .nil, ⟨rfl, by decide, fun k x h => ?_⟩, .nil⟩ .nil
  cases k with
  | zero => cases h; exact .word rfl
  | succ k => simp at h

theorem new_reads : List.Forall₂ ObjReads newObjs newTree := by
  refine .cons ⟨[['x']], by decide, ⟨rfl, by decide, fun k x h => ?_⟩, .nil⟩ .nil
  match k, h with
  | 0, h => cases h; exact .word rfl
  | 1, h => cases h; exact .word rfl
  | 2, h => cases h; exact .var (k := 0) (by decide) rfl rfl
  | k + 3, h => simp at h

set_option smartUnfolding false in
set_option maxHeartbeats 1000000 in
/-- They are written as times, not at all, and as `(mdl nil nil v0)`. -/
theorem ts_written (f : Nat) : decompile (f + 30) tT tsObjs = some [⟨some "o0".toList, "t".toList, [.ts (BitVec.allOnes 64)], none⟩] := by
  with_unfolding_all rfl

set_option smartUnfolding false in
set_option maxHeartbeats 1000000 in
theorem nid_written (f : Nat) : decompile (f + 30) tT nidObjs = none := by
  with_unfolding_all rfl

set_option smartUnfolding false in
set_option maxHeartbeats 1000000 in
theorem new_written (f : Nat) : decompile (f + 30) tT newObjs =
    some [⟨some "o0".toList, "mdl".toList, [.nilw .nil, .nilw .nil, .name "v0".toList false], none⟩] := by
  with_unfolding_all rfl

set_option smartUnfolding false in
set_option maxHeartbeats 1000000 in
theorem ts_compiled (f : Nat) : compile (f + 30) tW.classes tW.sys tW.allow [⟨some "o0".toList, "t".toList, [.ts (BitVec.allOnes 64)], none⟩] =
    some [⟨[tC.atom, iPointer 2, timestamp, 0xFFFFFFFF, 0xFFFFFFFF], [], []⟩] := by
  with_unfolding_all rfl

set_option smartUnfolding false in
set_option maxHeartbeats 1000000 in
theorem new_compiled (f : Nat) : compile (f + 30) tW.classes tW.sys tW.allow
    [⟨some "o0".toList, "mdl".toList, [.nilw .nil, .nilw .nil, .name "v0".toList false], none⟩] = none := by
  with_unfolding_all rfl

/-- **C95**, violated: an undefined time comes back as a time, an undefined node is written as `|sid`, which is not read,
and a variable that is first used in the third member of a model is written without a colon, which is not read. -/
theorem C95_decompiled_violated : ¬ C95_full ∧ ¬ Returns tT tW tsObjs tsTree ∧ ¬ Returns tT tW nidObjs nidTree ∧
    ¬ Returns tT tW newObjs newTree := by
  have h1 : ¬ Returns tT tW tsObjs tsTree := by
    rintro ⟨f0, src, h, f1, h'⟩
    have h2 := h (f0 + 30) (by omega)
    rw [ts_written] at h2
    cases h2
    obtain ⟨objs, ho, hr⟩ := h' (f1 + 30) (by omega)
    rw [ts_compiled] at ho
    cases ho
    cases hr with
    | cons hr _ =>
      obtain ⟨H, _, ht, _⟩ := hr
      cases ht.2.2 0 _ rfl with
      | time hj hij h ha hv =>
        rename_i j
        match j, ha with
        | 0, ha => exact absurd ha (by decide)
        | 1, ha => exact absurd ha (by decide)
        | 2, ha => exact absurd ha (by decide)
        | 3, ha => exact absurd ha (by decide)
        | 4, ha => exact absurd ha (by decide)
        | j + 5, ha => exact absurd ha (by simp)
  have h2 : ¬ Returns tT tW nidObjs nidTree := by
    rintro ⟨f0, src, h, _⟩
    have h2 := h (f0 + 30) (by omega)
    rw [nid_written] at h2
    cases h2
  have h3 : ¬ Returns tT tW newObjs newTree := by
    rintro ⟨f0, src, h, f1, h'⟩
    have h2 := h (f0 + 30) (by omega)
    rw [new_written] at h2
    cases h2
    obtain ⟨objs, ho, hr⟩ := h' (f1 + 30) (by omega)
    rw [new_compiled] at ho
    cases ho
  exact ⟨fun h => h1 (h tT tW tsSrc tsTree tsObjs rfl (fun _ => rfl) tT_describes (tT_labelled _) ts_means ts_reads), h1, h2, h3⟩

/-! ## A source that comes back -/

def exT : Meta where
  classNames := [[], [], "mdl".toList, "obj".toList, "p".toList, [], "pgm_view".toList, "q".toList]
  operatorNames := [[], [], [], [], [], "add".toList]
  functionNames := []
  byOpcode := [[], [], "mdl".toList, "obj".toList, "p".toList, "add".toList, "pgm_view".toList, "q".toList]
  inj := none
  names k := some ('w' :: TimeText.dec k)
  ref := 0
  shown := some

theorem exT_labelled (n : Nat) : Labelled exT exW n where
  all k _ := ⟨_, rfl, rfl, fun v h => by cases h⟩
  apart j _ k _ h := by
    have h1 : 'w' :: TimeText.dec j = 'w' :: TimeText.dec k := Option.some.inj h
    have h2 := (List.cons.inj h1).2
    rw [← TimeText.value_dec j, h2, TimeText.value_dec]
  vars v := rfl

/-- What it compiles to. -/
def exObjs : List Obj :=
  [⟨[object 3 2, iPointer 3, iPointer 5, Atom.string 2, 0x6261, duration, 0, 10], [], []⟩,
   ⟨[model 2 3, iPointer 4, iPointer 8, assignmentPointer 1 21,
     Atom.set 3, vlPointer 0, vlPointer 1, rPointer 0,
     object 7 2, iPointer 11, iPointer 15,
     object 4 3, vlPointer 0, tailWildcard, wildcard 0,
     Atom.set 1, iPointer 17,
     object 4 3, vlPointer 1, vlPointer 0, tailWildcard,
     operator 5 2, vlPointer 0, Atom.float 0x3F800000], [0],
    [⟨[sSet 6 2, Atom.float 0x3F800000, rPointer 0], [0]⟩]⟩]

theorem ex_plain : plainSrc exT exW (fun _ => none) 0 exSrc := by
  have hq : HeadOk exT "q".toList (object 7 2) := ⟨by decide, .expr, by decide, by decide, by decide⟩
  have hp : HeadOk exT "p".toList (object 4 3) := ⟨by decide, .expr, by decide, by decide, by decide⟩
  have ha : HeadOk exT "add".toList (operator 5 2) := ⟨by decide, .expr, by decide, by decide, by decide⟩
  refine ⟨fun c hc => ?_, fun c hc => ?_, trivial⟩
  · cases hc
    refine ⟨by decide, ⟨.expr, by decide, by decide, ?_⟩, fun xs h => by cases h⟩
    exact ⟨⟨by decide, by decide, by decide⟩, (by decide : (10 : BitVec 64) ≠ 0x8000000000000000), trivial⟩
  · cases hc
    refine ⟨by decide, ⟨.hlp, by decide, by decide, ?_⟩, fun xs h => ?_⟩
    · refine ⟨⟨fun h => (by cases h), rfl, rfl, ⟨fun c h => (by cases h), fun h => by cases h⟩, trivial⟩, ?_, ?_, trivial⟩
      · refine ⟨fun h => (by cases h), fun c h => by cases h; exact hq, ?_, ?_, trivial⟩
        · exact ⟨fun h => (by cases h), fun c h => by cases h; exact hp, ⟨fun c h => (by cases h), fun _ _ => rfl⟩, trivial, trivial⟩
        · refine ⟨fun h => (by cases h), ?_, trivial⟩
          exact ⟨fun h => (by cases h), fun c h => by cases h; exact hp, ⟨fun c h => (by cases h), fun _ _ => rfl⟩,
            ⟨fun c h => (by cases h), fun _ _ => rfl⟩, trivial, trivial⟩
      · exact ⟨fun _ => rfl, fun c h => by cases h; exact ha, ⟨fun c h => (by cases h), fun _ _ => rfl⟩,
          ⟨by decide, .inr ⟨_, rfl, by decide⟩⟩, trivial⟩
    · cases h
      exact ⟨⟨by decide, by decide, ⟨by decide, .inr ⟨_, rfl, by decide⟩⟩, ⟨fun c h => (by cases h), fun h => by cases h⟩, trivial⟩, trivial⟩

/-- The hypotheses of `C95_decompiled_partial` are met by the source of `C91_nonvacuous`, and what it compiles to comes back
word for word. -/
theorem C95_nonvacuous :
    SrcMeans Limits.tame exW (fun _ => none) 0 exSrc exTree ∧ plainSrc exT exW (fun _ => none) 0 exSrc ∧
    Labelled exT exW exSrc.length ∧ Describes exT exW ∧ compile 40 exW.classes exW.sys exW.allow exSrc = some exObjs ∧
    ((decompile 40 exT exObjs).bind fun src => compile 40 exW.classes exW.sys exW.allow src) = some exObjs := by
  refine ⟨C91_nonvacuous.1, ex_plain, exT_labelled _, ?_, C91_nonvacuous.2, by decide +kernel⟩
  intro x c h
  have hc : x = "obj".toList ∨ x = "p".toList ∨ x = "q".toList ∨ x = "mdl".toList ∨ x = "add".toList ∨ x = "pgm_view".toList := by
    by_contra hn
    simp only [not_or] at hn
    have : exW.classes x = none := by
      show exA x = none
      rw [exA, if_neg hn.2.2.2.2.1, if_neg hn.2.2.2.2.2, exC, if_neg hn.1, if_neg hn.2.1, if_neg hn.2.2.1, if_neg hn.2.2.2.1]
    rw [this] at h
    cases h
  rcases hc with rfl | rfl | rfl | rfl | rfl | rfl <;> cases h <;> rw [if_neg (by decide)] <;> intro hd
  · exact ⟨by decide, .expr, by decide, by decide⟩
  · exact ⟨by decide, .expr, by decide, by decide⟩
  · exact ⟨by decide, .expr, by decide, by decide⟩
  · exact ⟨by decide, .hlp, by decide, by decide⟩
  · exact ⟨by decide, .expr, by decide, by decide⟩
  · exact absurd rfl hd

end Verif.Decomp
