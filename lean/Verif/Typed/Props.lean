import Verif.Typed.Objects
import Verif.Compile.Props

/-!
# C92: what compiles is well typed
-/
namespace Verif.Typed
open Verif.Macro (Name)
open Verif.Compile Verif.Classes Verif.Atom

/-- **C92** in full: a source that compiles is well typed, whatever its classes: every member of every expression, every
element of every set and every view is what the class says must stand there. -/
def C92_full : Prop :=
  ∀ (W : World), Named W → ∀ (f : Nat) (src : List Source) (objs : List Obj),
    compile f W.classes W.sys W.allow src = some objs → SrcFits true W (fun _ => none) src

/-- **C92**, proved: for sources where `::` only stands after members of expressions and where, in a set that a member
reads by a class, no member uses that class in another way. Not proved, as it does not hold: that objects that are
referred to where an expression of a class must stand are of that class; that labels, where anything may stand, of
operators that return a set or a class are variables. -/
theorem C92_typed_partial (W : World) (hN : Named W) (f : Nat) (src : List Source) (objs : List Obj) (hT : TidySrc W src)
    (h : compile f W.classes W.sys W.allow src = some objs) : SrcFits false W (fun _ => none) src :=
  source_fits hN f src (fun _ => none) (fun _ => none) 0 start objs ⟨fun x o t h => (by cases h), fun _ _ => rfl⟩ rfl rfl hT h

/-! ## Sources that compile and should not -/

/-- `(obj s)`, `(p a b)`, `(node kids:[::node] parent:node)`, `(mdl v:[] f:p)`. -/
def badC : Name → Option Class := fun x =>
  if x = "obj".toList then some ⟨object 3 1, x, [⟨.any, "s".toList, [], .cls⟩], .any⟩
  else if x = "p".toList then some ⟨object 4 2, x, [⟨.any, "a".toList, [], .cls⟩, ⟨.any, "b".toList, [], .cls⟩], .any⟩
  else if x = "node".toList then
    some ⟨object 5 2, x, [⟨.set, "kids".toList, "node".toList, .expression⟩, ⟨.expression, "parent".toList, "node".toList, .cls⟩], .any⟩
  else if x = "mdl".toList then
    some ⟨model 2 2, x, [⟨.set, "v".toList, [], .cls⟩, ⟨.expression, "f".toList, "p".toList, .cls⟩], .any⟩
  else none

/-- And `ops`, an operator that returns a set. -/
def badA : Name → Option Class := fun x =>
  if x = "ops".toList then some ⟨operator 6 1, x, [⟨.any, "a".toList, [], .cls⟩], .set⟩ else badC x

theorem badC_name {x : Name} {c : Class} (h : badC x = some c) :
    (x = "obj".toList ∨ x = "p".toList ∨ x = "node".toList ∨ x = "mdl".toList) ∧ c.name = x ∧ c.type = .any := by
  unfold badC at h
  by_cases h1 : x = "obj".toList
  · rw [if_pos h1] at h; cases h; exact ⟨.inl h1, rfl, rfl⟩
  · rw [if_neg h1] at h
    by_cases h2 : x = "p".toList
    · rw [if_pos h2] at h; cases h; exact ⟨.inr (.inl h2), rfl, rfl⟩
    · rw [if_neg h2] at h
      by_cases h3 : x = "node".toList
      · rw [if_pos h3] at h; cases h; exact ⟨.inr (.inr (.inl h3)), rfl, rfl⟩
      · rw [if_neg h3] at h
        by_cases h4 : x = "mdl".toList
        · rw [if_pos h4] at h; cases h; exact ⟨.inr (.inr (.inr h4)), rfl, rfl⟩
        · rw [if_neg h4] at h; cases h

def badW : World where
  classes := badA
  sys := badC
  allow := false
  sub x c h := by
    obtain ⟨h1, _, h2⟩ := badC_name h
    refine ⟨?_, h2⟩
    rcases h1 with rfl | rfl | rfl | rfl <;> exact h
  view c v h := by
    have h1 : badA "grp_view".toList = none := rfl
    have h2 : badA "pgm_view".toList = none := rfl
    have h3 : badA "view".toList = none := rfl
    simp only [viewsOf, h1, h2, h3, ite_self, reduceCtorEq] at h

theorem bad_named : Named badW := by
  intro x c h
  have h : badA x = some c := h
  unfold badA at h
  by_cases hx : x = "ops".toList
  · rw [if_pos hx] at h; cases h; rfl
  · rw [if_neg hx] at h; exact (badC_name h).2.1

/-- `(mdl [x: ::] (p x))`: `p` has two members. -/
def tailSrc : List Source :=
  [⟨none, "mdl".toList, [.set none [.var ['x'], .tail], .expr none "p".toList [.name ['x'] false]], none⟩]

/-- `(node [|[] (node |[] nil)] nil)`: no set may stand among the kids. -/
def kidsSrc : List Source :=
  [⟨none, "node".toList, [.set none [.empty, .expr none "node".toList [.empty, .nilw .nil]], .nilw .nil], none⟩]

/-- `o:(obj 0)` and `(mdl [x:] o)`: `o` is not a `p`. -/
def refSrc : List Source :=
  [⟨some ['o'], "obj".toList, [.num 0], none⟩, ⟨none, "mdl".toList, [.set none [.var ['x']], .name ['o'] false], none⟩]

/-- `(mdl [l:(ops 0)] nil)`: `l` is no variable. -/
def lblSrc : List Source :=
  [⟨none, "mdl".toList, [.set none [.expr (some ['l']) "ops".toList [.num 0]], .nilw .nil], none⟩]

/-- `(mdl [x:] (p x))`: like `tailSrc`, without `::`. -/
def fewSrc : List Source :=
  [⟨none, "mdl".toList, [.set none [.var ['x']], .expr none "p".toList [.name ['x'] false]], none⟩]

/-- Member `k` of an object fits. -/
theorem fits_arg {Γ : Ctx} {st v : Bool} {K : Option Want} {l : Option Name} {h : Name} {args : List Syn} {c : Class}
    (hf : Fits Γ st v K (.expr l h args)) (hc : Γ.classes h = some c) {k : Nat} {x : Syn} (hk : args[k]? = some x) (hx : x ≠ .tail) :
    Fits Γ st (v || Γ.pat c k) (argWant Γ.classes c k) x := by
  cases hf with
  | lit hx _ => cases hx
  | expr hc' _ _ _ ha => rw [hc] at hc'; cases hc'; exact ha k x hk
  | exprTail hc' _ _ _ _ ha =>
    rw [hc] at hc'; cases hc'
    refine ha k x ?_
    rw [List.getElem?_append] at hk
    split at hk
    · exact hk
    · next h1 => 
      rw [List.getElem?_singleton] at hk
      split at hk
      · cases hk; exact absurd rfl hx
      · cases hk

/-- An expression has as many members as its class, if it does not end with `::`. -/
theorem fits_length {Γ : Ctx} {st v : Bool} {K : Option Want} {l : Option Name} {h : Name} {args : List Syn} {c : Class}
    (hf : Fits Γ st v K (.expr l h args)) (hc : Γ.classes h = some c) (ht : .tail ∉ args) : args.length = arity c := by
  cases hf with
  | lit hx _ => cases hx
  | expr hc' _ _ hn _ => rw [hc] at hc'; cases hc'; exact hn
  | exprTail hc' _ _ _ _ _ => exact absurd (by simp) ht

theorem few_bad {st : Bool} {x : List Syn} {v : Option (List Syn)} :
    ¬ SrcFits st badW (fun _ => none) [⟨none, "mdl".toList, [.set none x, .expr none "p".toList [.name ['x'] false]], v⟩] := by
  intro h
  cases h with
  | cons hc _ ho _ _ =>
    have h1 := fits_arg (k := 1) ho (c := (badA "mdl".toList).get rfl) rfl rfl (by simp)
    exact absurd (fits_length h1 (c := (badA "p".toList).get rfl) rfl (by simp)) (by decide)

theorem kids_bad : ¬ SrcFits true badW (fun _ => none) kidsSrc := by
  intro h
  cases h with
  | cons hc _ ho _ _ =>
    have h1 := fits_arg (k := 0) ho (c := (badA "node".toList).get rfl) rfl rfl (by simp)
    have hw : ∀ Γ : Ctx, Γ.classes = badA → argWant Γ.classes ((badA "node".toList).get rfl) 0 =
      some (.set (some ((badA "node".toList).get rfl, .expression))) := fun Γ h => by rw [h]; rfl
    rw [hw _ rfl] at h1
    cases h1 with
    | lit hx _ => cases hx
    | setU h _ _ => rcases h with h | h <;> cases h
    | setC _ _ ha =>
      have h2 : Fits _ _ _ (some (.expr (some ((badA "node".toList).get rfl)))) .empty := ha 0 .empty rfl
      cases h2 with
      | empty h => rcases h with h | ⟨p, h⟩ <;> cases h
      | lit hx _ => cases hx

theorem ref_bad : ¬ SrcFits true badW (fun _ => none) refSrc := by
  intro h
  cases h with
  | @cons _ _ c _ hc _ _ _ h =>
    cases hc
    cases h with
    | cons hc _ ho _ _ =>
      cases hc
      have h1 := fits_arg (k := 1) ho (c := (badA "mdl".toList).get rfl) rfl rfl (by simp)
      have h1 : Fits _ true _ (some (.expr (some ((badA "p".toList).get rfl)))) (.name ['o'] false) := h1
      cases h1 with
      | lit hx _ => cases hx
      | name hx _ => exact absurd hx (by simp [Ctx.bound, inside, whole, namesAll, names])
      | obj hx _ hs =>
        have := hs rfl _ rfl
        subst this
        exact absurd hx (by decide)
      | fn hx h => rcases h with h | h <;> cases h

theorem lbl_bad : ¬ SrcFits true badW (fun _ => none) lblSrc := by
  intro h
  cases h with
  | cons hc _ ho _ _ =>
    cases hc
    have h1 := fits_arg (k := 0) ho (c := (badA "mdl".toList).get rfl) rfl rfl (by simp)
    have h1 : Fits _ true _ (some (.set none)) (.set none [.expr (some ['l']) "ops".toList [.num 0]]) := h1
    have key : ∀ {Γ : Ctx} {v} {l : List Syn} {x}, Fits Γ true v (some (.set none)) (.set none l) → x ∈ l →
        Fits Γ true v (some .any) x := by
      intro Γ v l x h hx
      cases h with
      | lit hx _ => cases hx
      | setU _ _ ha => obtain ⟨k, hk⟩ := List.mem_iff_getElem?.mp hx; exact ha k _ hk
    have h2 := key h1 List.mem_cons_self
    have key2 : ∀ {Γ : Ctx} {v} {a : List Syn}, Fits Γ true v (some .any) (.expr (some ['l']) "ops".toList a) → Γ.hlp = true →
        Γ.names (['l'], true) := by
      intro Γ v a h hh
      cases h with
      | lit hx _ => cases hx
      | expr _ _ hl _ _ => rcases hl _ rfl hh with h | h; exact h; cases h.1
      | exprTail _ _ hl _ _ _ => rcases hl _ rfl hh with h | h; exact h; cases h.1
    exact absurd (key2 h2 rfl) (by simp [inside, whole, namesAll, names])

/-- **C92**, violated: `::` in a set lets the next expression be short of members; the elements of a set are read as
another member uses their class; objects of any class may be referred to; a label may be no variable. -/
theorem C92_typed_violated :
    ¬ C92_full ∧ ∀ src ∈ [tailSrc, kidsSrc, refSrc, lblSrc],
      ¬ SrcFits true badW (fun _ => none) src ∧ compile 40 badW.classes badW.sys badW.allow src ≠ none := by
  have h : ∀ src ∈ [tailSrc, kidsSrc, refSrc, lblSrc],
      ¬ SrcFits true badW (fun _ => none) src ∧ compile 40 badW.classes badW.sys badW.allow src ≠ none := by
    intro src hs
    simp only [List.mem_cons, List.not_mem_nil, or_false] at hs
    rcases hs with rfl | rfl | rfl | rfl
    · exact ⟨few_bad, by decide +kernel⟩
    · exact ⟨kids_bad, by decide +kernel⟩
    · exact ⟨ref_bad, by decide +kernel⟩
    · exact ⟨lbl_bad, by decide +kernel⟩
  refine ⟨fun hf => ?_, h⟩
  obtain ⟨h1, h2⟩ := h tailSrc (by simp)
  obtain ⟨objs, ho⟩ := Option.ne_none_iff_exists'.mp h2
  exact h1 (hf badW bad_named 40 _ _ ho)

/-! ## Sources that are as is asked -/

theorem ex_named : Named exW := by
  intro x c h
  have h : exA x = some c := h
  unfold exA exC at h
  repeat' split at h
  all_goals first | (cases h; rfl) | cases h

theorem ex_tidy : TidySrc exW exSrc := by
  intro o ho
  simp only [exSrc, List.mem_cons, List.not_mem_nil, or_false] at ho
  rcases ho with rfl | rfl
  · refine ⟨by simp [Tidy, TidyAll], fun xs hx => by cases hx⟩
  · refine ⟨?_, ?_⟩
    · have h1 : argAt (exW.classes "mdl".toList) 0 = .mem ⟨.set, "v".toList, [], .cls⟩ := rfl
      have h2 : ∀ q ∈ usesAll exW.classes (elemAt (kindOf exW.classes (.mem ⟨.set, "g".toList, "p".toList, .expression⟩))) 0
          [.expr none "p".toList [.name ['v'] false, .name ['x'] false, .tail]], q.1 = "p".toList → q.2 = .expression := by
        decide +kernel
      have h3 : argAt (exW.classes "q".toList) (0 + 1) = .mem ⟨.set, "g".toList, "p".toList, .expression⟩ := rfl
      simp only [Tidy, TidyAll, h1, h3]
      simp [kindOf, elemAt, usesAll, uses, own] at h2 ⊢
      exact h2
    · intro xs hx x hx' c v hc hv
      cases hx; cases hc; cases hv
      simp only [List.mem_cons, List.not_mem_nil, or_false] at hx'
      subst hx'
      simp [Tidy, TidyAll]

/-- The hypotheses of `C92_typed_partial` are met by a source with labels, patterns with a tail, sets, an assignment and
views. A source that is as is asked, where an expression is short of a member, does not compile at any depth. -/
theorem C92_nonvacuous :
    (Named exW ∧ TidySrc exW exSrc ∧ compile 40 exW.classes exW.sys exW.allow exSrc ≠ none) ∧
      TidySrc badW fewSrc ∧ ¬ SrcFits false badW (fun _ => none) fewSrc ∧
        ∀ f, compile f badW.classes badW.sys badW.allow fewSrc = none := by
  have ht : TidySrc badW fewSrc := by
    intro o ho
    simp only [fewSrc, List.mem_cons, List.not_mem_nil, or_false] at ho
    subst ho
    have h1 : argAt (badW.classes "mdl".toList) 0 = .mem ⟨.set, "v".toList, [], .cls⟩ := rfl
    refine ⟨?_, fun xs hx => by cases hx⟩
    simp only [Tidy, TidyAll, h1]
    simp [kindOf, elemAt, usesAll, uses, own]
  refine ⟨⟨ex_named, ex_tidy, by decide +kernel⟩, ht, few_bad, fun f => ?_⟩
  cases h : compile f badW.classes badW.sys badW.allow fewSrc with
  | none => rfl
  | some objs => exact absurd (C92_typed_partial badW bad_named f _ _ ht h) few_bad

end Verif.Typed
