import Verif.Typed.Lemmas

/-! # What is read fits -/
namespace Verif.Typed
open Verif.Macro (Name)
open Verif.Compile Verif.Classes Verif.Atom

variable {Γ : Ctx} {e : Env} {U : Name → Iter → Prop} {w v : Bool} {s s' s'' : St} {R R' : St → Prop} {K : Want} {x : Syn} {o : Out}
  {cl : Name → Option Class} {p : Pos} {pos : Nat → Pos} {n : Nat} {elems : List Syn} {t : Bool}

/-- Like `Ok`, where nothing but counting comes to false. -/
def OkB (Γ : Ctx) (U : Name → Iter → Prop) (w : Bool) (R : St → Prop) (s : St) : Out → Prop
  | .yes s' => Keep Γ U s s' ∧ (w = true → s'.lvl = s.lvl ∧ R s')
  | .no s' => Keep Γ U s s' ∧ w = false
  | .err => True

/-- Like `Ok`, where nothing is said of the state when it comes to false. -/
def OkW (Γ : Ctx) (U : Name → Iter → Prop) (w : Bool) (R : St → Prop) (s : St) : Out → Prop
  | .yes s' => Keep Γ U s s' ∧ (w = true → s'.lvl = s.lvl ∧ R s')
  | .no s' => Keep Γ U s s'
  | .err => True

theorem OkB.ok (h : OkB Γ U w R s o) : Ok Γ U w R s o := by
  cases o with
  | yes s' => exact h
  | no s' => exact ⟨h.1, fun hw => by rw [h.2] at hw; cases hw⟩
  | err => trivial

theorem Ok.weak (h : Ok Γ U w R s o) : OkW Γ U w R s o := by
  cases o with
  | yes s' => exact h
  | no s' => exact h.1
  | err => trivial

theorem OkB.imp (h : OkB Γ U w R s o) (hR : ∀ s', w = true → R s' → R' s') : OkB Γ U w R' s o := by
  cases o with
  | yes s' => exact ⟨h.1, fun hw => ⟨(h.2 hw).1, hR _ hw (h.2 hw).2⟩⟩
  | no s' => exact h
  | err => trivial

theorem OkB.after (hk : Keep Γ U s s') (hl : w = true → s'.lvl = s.lvl) (h : OkB Γ U w R s' o) : OkB Γ U w R s o := by
  cases o with
  | yes t => exact ⟨hk.trans h.1, fun hw => ⟨(h.2 hw).1.trans (hl hw), (h.2 hw).2⟩⟩
  | no t => exact ⟨hk.trans h.1, h.2⟩
  | err => trivial

theorem OkW.after (hk : Keep Γ U s s') (hl : w = true → s'.lvl = s.lvl) (h : OkW Γ U w R s' o) : OkW Γ U w R s o := by
  cases o with
  | yes t => exact ⟨hk.trans h.1, fun hw => ⟨(h.2 hw).1.trans (hl hw), (h.2 hw).2⟩⟩
  | no t => exact hk.trans h
  | err => trivial

theorem okB_fail (hP : Known Γ s) : OkB Γ U w R s (fail w s) := by
  cases w with
  | true => trivial
  | false => exact ⟨.refl hP, rfl⟩

/-! ## Elements -/

/-- These ways of using classes are in accordance with `U`. -/
def Fit (U : Name → Iter → Prop) (us : List (Name × Iter)) : Prop := ∀ r ∈ us, ∀ i, U r.1 i → i = r.2

structure Nice (Γ : Ctx) (cl : Name → Option Class) (U : Name → Iter → Prop) (p : Pos) (x : Syn) : Prop where
  names : ∀ q ∈ names x, Γ.names q
  tidy : x = .tail ∨ Tidy cl p x
  uses : Fit U (uses cl p x)

structure NiceAll (Γ : Ctx) (cl : Name → Option Class) (U : Name → Iter → Prop) (t : Bool) (pos : Nat → Pos) (n : Nat)
    (elems : List Syn) : Prop where
  names : ∀ q ∈ namesAll elems, Γ.names q
  tidy : TidyAll cl t pos n elems
  uses : Fit U (usesAll cl pos n elems)

mutual
theorem uses_any (cl : Name → Option Class) : ∀ (x : Syn) (p : Pos) (r : Name × Iter), r ∈ uses cl .any x → r ∈ uses cl p x
  | .expr l h args, p, r, hr => by
    simp only [uses, own, List.nil_append] at hr
    simp only [uses]
    exact List.mem_append_right _ hr
  | .set l elems, p, r, hr => by
    simp only [uses, own, List.nil_append] at hr
    simp only [uses]
    exact List.mem_append_right _ (usesAll_any cl elems _ _ _ r hr)
  | .nilw _, _, _, hr | .empty, _, _, hr | .this, _, _, hr | .num _, _, _, hr | .ts _, _, _, hr | .dur _, _, _, hr | .str _, _, _, hr
  | .bool _, _, _, hr | .hex _, _, _, hr | .wild, _, _, hr | .tail, _, _, hr | .var _, _, _, hr | .name _ _, _, _, hr
  | .cls _ _, _, _, hr => by simp [uses, own] at hr
theorem usesAll_any (cl : Name → Option Class) : ∀ (l : List Syn) (pos : Nat → Pos) (m n : Nat) (r : Name × Iter),
    r ∈ usesAll cl (fun _ => .any) m l → r ∈ usesAll cl pos n l
  | [], _, _, _, _, hr => by simp [usesAll] at hr
  | x :: l, pos, m, n, r, hr => by
    simp only [usesAll, List.mem_append] at hr ⊢
    rcases hr with hr | hr
    · exact .inl (uses_any cl x _ r hr)
    · exact .inr (usesAll_any cl l pos _ _ r hr)
end

mutual
theorem tidy_any (cl : Name → Option Class) : ∀ (x : Syn) (p : Pos), Tidy cl p x → Tidy cl .any x
  | .expr l h args, p, hr => by simpa only [Tidy] using hr
  | .set l elems, p, hr => by
    simp only [Tidy] at hr ⊢
    exact ⟨fun m hm => (by cases hm), tidyAll_any cl elems _ _ _ _ hr.2⟩
  | .tail, _, hr => by simp [Tidy] at hr
  | .nilw _, _, _ | .empty, _, _ | .this, _, _ | .num _, _, _ | .ts _, _, _ | .dur _, _, _ | .str _, _, _
  | .bool _, _, _ | .hex _, _, _ | .wild, _, _ | .var _, _, _ | .name _ _, _, _ | .cls _ _, _, _ => by simp [Tidy]
theorem tidyAll_any (cl : Name → Option Class) : ∀ (l : List Syn) (t : Bool) (pos : Nat → Pos) (m n : Nat),
    TidyAll cl t pos n l → TidyAll cl t (fun _ => .any) m l
  | [], _, _, _, _, _ => by simp [TidyAll]
  | x :: l, t, pos, m, n, hr => by
    simp only [TidyAll] at hr ⊢
    refine ⟨?_, tidyAll_any cl l t pos _ _ hr.2⟩
    rcases hr.1 with h | h
    · exact .inl h
    · exact .inr (tidy_any cl x _ h)
end

theorem NiceAll.any (h : NiceAll Γ cl U t pos n elems) (m : Nat) : NiceAll Γ cl U t (fun _ => .any) m elems :=
  ⟨h.names, tidyAll_any cl _ _ _ _ _ h.tidy, fun r hr => h.uses r (usesAll_any cl _ _ _ _ r hr)⟩

theorem NiceAll.head {r : List Syn} (h : NiceAll Γ cl U t pos n (x :: r)) : Nice Γ cl U (pos n) x := by
  refine ⟨fun q hq => h.names q (by simp [namesAll, hq]), ?_, fun q hq => h.uses q (by simp [usesAll, hq])⟩
  have := h.tidy
  simp only [TidyAll] at this
  rcases this.1 with h | h
  · exact .inl h.2.1
  · exact .inr h

theorem NiceAll.rest {r : List Syn} (h : NiceAll Γ cl U t pos n (x :: r)) : NiceAll Γ cl U t pos (n + 1) r := by
  refine ⟨fun q hq => h.names q (by simp [namesAll, hq]), ?_, fun q hq => h.uses q (by simp [usesAll, hq])⟩
  have := h.tidy
  simp only [TidyAll] at this
  exact this.2

theorem NiceAll.tail {r : List Syn} (h : NiceAll Γ cl U t pos n (.tail :: r)) : t = true ∧ r = [] := by
  have := h.tidy
  simp only [TidyAll, Tidy, or_false] at this
  exact ⟨this.1.1, this.1.2.2⟩

theorem Nice.args {l : Option Name} {h : Name} {args : List Syn} (hN : Nice Γ cl U p (.expr l h args)) :
    NiceAll Γ cl U true (argAt (cl h)) 0 args := by
  refine ⟨fun q hq => hN.names q (by simp [Typed.names, hq]), ?_, fun q hq => hN.uses q (by simp [Compile.uses, hq])⟩
  rcases hN.tidy with h | h
  · cases h
  · simpa only [Tidy] using h

theorem Nice.kids {l : Option Name} (hN : Nice Γ cl U p (.set l elems)) :
    NiceAll Γ cl U false (elemAt (kindOf cl p)) 0 elems := by
  refine ⟨fun q hq => hN.names q (by simp [Typed.names, hq]), ?_, fun q hq => hN.uses q (by simp [Compile.uses, hq])⟩
  rcases hN.tidy with h | h
  · cases h
  · simp only [Tidy] at h; exact h.2

theorem Nice.strip (hN : Nice Γ cl U p x) : Nice Γ cl U p (strip x) := by
  cases x with
  | expr l h args =>
    refine ⟨fun q hq => hN.names q (by simp only [Compile.strip, Typed.names, Option.toList_none, List.map_nil, List.nil_append] at hq; simp [Typed.names, hq]), ?_, ?_⟩
    · simpa only [Compile.strip, Tidy, reduceCtorEq, false_or] using hN.tidy
    · simpa only [Compile.strip, Compile.uses] using hN.uses
  | set l elems =>
    refine ⟨fun q hq => hN.names q (by simp only [Compile.strip, Typed.names, Option.toList_none, List.map_nil, List.nil_append] at hq; simp [Typed.names, hq]), ?_, ?_⟩
    · simpa only [Compile.strip, Tidy, reduceCtorEq, false_or] using hN.tidy
    · simpa only [Compile.strip, Compile.uses] using hN.uses
  | _ => exact hN

/-! ## Nothing comes to false while writing, once it was begun -/

theorem exprArgs_no {wi last : Nat} {c : Class} {pat : Bool} :
    ∀ (f : Nat) (s s' : St) (n : Nat) (args : List Syn), exprArgs f e s wi true c pat last n args ≠ .no s' := by
  intro f
  induction f with
  | zero => intro s s' n args h; simp [exprArgs] at h
  | succ f ih =>
    intro s s' n args h
    cases args with
    | nil =>
      simp only [exprArgs, fail, if_true] at h
      split at h
      · cases h
      · split at h <;> cases h
    | cons x r =>
      simp only [exprArgs, fail, if_true] at h
      split at h
      · cases h
      · split at h
        · cases h
        · split at h
          · exact ih _ _ _ _ h
          · cases h
          · cases h

theorem exprBody_no {wi : Nat} {c : Class} {l : Option Name} (f : Nat) (s s' : St) (args : List Syn) :
    exprBody f e s wi true c l args ≠ .no s' := by
  have ht : ∀ f s wi, exprTail f e s wi true c args ≠ .no s' := by
    intro f s wi h
    cases f with
    | zero => simp [exprTail] at h
    | succ f => exact exprArgs_no _ _ _ _ _ h
  intro h
  cases f with
  | zero => simp [exprBody] at h
  | succ f =>
    cases l with
    | none => exact ht _ _ _ (by simpa only [exprBody, if_true] using h)
    | some l =>
      simp only [exprBody, if_true] at h
      split at h
      · split at h
        · exact ht _ _ _ h
        · cases h
      · exact ht _ _ _ h

/-- An expression is not read as a value because of its type. -/
theorem readLit_no {f wi : Nat} {en : Bool} {k : Lit} {l : Option Name} {h : Name} {args : List Syn} {c : Class}
    (hc : e.classes h = some c) (hr : readLit f e s wi true en k (.expr l h args) = .no s') : c.type ≠ .any ∧ c.type ≠ k.ret := by
  by_contra hn
  have ht : c.type = .any ∨ c.type = k.ret := by
    by_cases h1 : c.type = .any
    · exact .inl h1
    · by_cases h2 : c.type = k.ret
      · exact .inr h2
      · exact absurd ⟨h1, h2⟩ hn
  cases f with
  | zero => simp [readLit] at hr
  | succ f =>
    have hk : k.ret ≠ .any := by cases k <;> simp [Lit.ret]
    have hx : ∀ t s', exprT f e t wi true k.ret (.expr l h args) ≠ .no s' := by
      intro t s' hx
      cases f with
      | zero => simp [exprT] at hx
      | succ f =>
        simp only [exprT, head, if_neg hk, hc, if_pos ht] at hx
        exact exprBody_no _ _ _ _ hx
    simp only [readLit] at hr
    cases hs : readSimple k e s wi true (.expr l h args) with
    | yes t => rw [hs] at hr; cases hr
    | err => rw [hs] at hr; cases hr
    | no t =>
      rw [hs] at hr
      simp only [Out.or] at hr
      cases hx' : exprT f e t wi true k.ret (.expr l h args) with
      | yes t' => rw [hx'] at hr; cases hr
      | err => rw [hx'] at hr; cases hr
      | no t' => exact hx t t' hx'

/-! ## All readers -/

/-- The members of an expression fit, from the `n`-th on. -/
def RestFit (Γ : Ctx) (v : Bool) (c : Class) (n : Nat) (args : List Syn) : Prop :=
  (n + args.length = arity c ∧
      ∀ (k : Nat) x, args[k]? = some x → Fits Γ false (v || Γ.pat c (n + k)) (argWant Γ.classes c (n + k)) x) ∨
    ∃ init, args = init ++ [.tail] ∧ n + init.length < arity c ∧ (v || Γ.pat c (n + init.length)) = true ∧
      ∀ (k : Nat) x, init[k]? = some x → Fits Γ false (v || Γ.pat c (n + k)) (argWant Γ.classes c (n + k)) x

/-- How the class of a set is used. -/
def UseOk (U : Name → Iter → Prop) (s : St) (i : Iter) : Use → Prop
  | .own j => j = i
  | .key n => U n i ∧ s.useAs n = i

theorem UseOk.keep {i : Iter} {u : Use} (h : UseOk U s i u) (hk : Keep Γ U s s') : UseOk U s' i u := by
  cases u with
  | own j => exact h
  | key n => exact ⟨h.1, hk.use n i h.1 h.2⟩

theorem UseOk.eq {i : Iter} {u : Use} (h : UseOk U s i u) : useOf s u = i := by
  cases u with
  | own j => exact h
  | key n => exact h.2

def wantE (o : Option Class) : Want := o.elim (.expr none) exprWant

/-- `expression_tail`: is it a pattern, and the last member at which variables may be. -/
def patOf (e : Env) (c : Class) : Bool := e.inHlp || isPattern e c
def lastOf (e : Env) (c : Class) : Nat := if e.inHlp then (if arity c = 0 then 65535 else arity c - 1) else 0

/-- What holds of all readers at a depth. -/
structure Level (Γ : Ctx) (e : Env) (f : Nat) : Prop where
  any : ∀ {U w v s p x} (wi : Nat), kindOf e.classes p = some .any → Pre Γ w v s → Nice Γ e.classes U p x →
    Ok Γ U w (Post Γ v (some .any) x) s (readAny f e s wi w x)
  lit : ∀ {U w v s p x} (wi : Nat) (en : Bool) (k : Lit), Pre Γ w v s → Nice Γ e.classes U p x →
    Ok Γ U w (Post Γ v (some (.lit k)) x) s (readLit f e s wi w en k x)
  expr : ∀ {U w v s p x} (wi : Nat) (en : Bool) (o : Option Class), (∀ c, o = some c → e.classes c.name = some c) →
    Pre Γ w v s → Nice Γ e.classes U p x → Ok Γ U w (Post Γ v (some (wantE o)) x) s (readExpr f e s wi w en o x)
  set : ∀ {U w v s p x} (wi : Nat) (en : Bool), (∀ k, elemAt (kindOf e.classes p) k = .any) → Pre Γ w v s →
    Nice Γ e.classes U p x → Ok Γ U w (Post Γ v (some (.set none)) x) s (readSet f e s wi w en none x)
  setBy : ∀ {U w v s l elems c u i} (wi : Nat) (en : Bool), e.classes c.name = some c → UseOk U s i u → Pre Γ w v s →
    (∀ n, l = some n → Γ.names (n, false)) → NiceAll Γ e.classes U false (elemAt (some (.set (some (c, i))))) 0 elems →
    Ok Γ U w (Post Γ v (some (.set (some (c, i)))) (.set l elems)) s (readSet f e s wi w en (some (c, u)) (.set l elems))
  mem : ∀ {U w v s m x} (wi : Nat), Pre Γ w v s → Nice Γ e.classes U (.mem m) x →
    OkW Γ U w (Post Γ v (memWant e.classes m) x) s (readMember f e s wi w m x)
  exprT : ∀ {U w v s p x K} (wi : Nat) (t : Ret), (∀ c, (t = .any ∨ c.type = .any ∨ c.type = t) → exprFits K c) → Pre Γ w v s →
    Nice Γ e.classes U p x → Ok Γ U w (Post Γ v (some K) x) s (exprT f e s wi w t x)
  exprC : ∀ {U w v s p x} (wi : Nat) (c : Class), e.classes c.name = some c → Pre Γ w v s →
    Nice Γ e.classes U p x → Ok Γ U w (Post Γ v (some (.expr (some c))) x) s (exprC f e s wi w c x)
  body : ∀ {U w v s c args} (wi : Nat) (l : Option Name), Pre Γ w v s → NiceAll Γ e.classes U true (argAt (some c)) 0 args →
    OkB Γ U w (fun s' => s'.noArity = false ∧ RestFit Γ v c 0 args ∧ ∀ n, l = some n → Γ.hlp = true → Γ.names (n, true)) s
      (exprBody f e s wi w c l args)
  tail : ∀ {U w v s c args} (wi : Nat), Pre Γ w v s → NiceAll Γ e.classes U true (argAt (some c)) 0 args →
    OkB Γ U w (fun s' => s'.noArity = false ∧ RestFit Γ v c 0 args) s (exprTail f e s wi w c args)
  args : ∀ {U w v s c n args} (wi base : Nat), Known Γ s → (w = true → s.noArity = false) → (w = true → base > 0 → v = true) →
    (w = true → s.lvl = base + if patOf e c = true ∧ 0 < n ∧ n ≤ lastOf e c then 1 else 0) →
    NiceAll Γ e.classes U true (argAt (some c)) n args →
    match exprArgs f e s wi w c (patOf e c) (lastOf e c) n args with
    | .yes s' => Keep Γ U s s' ∧ (w = true → s'.lvl = base ∧ s'.noArity = false ∧ RestFit Γ v c n args)
    | .no s' => Keep Γ U s s' ∧ w = false
    | .err => True
  setU : ∀ {U w v s l elems} (wi : Nat), Pre Γ w v s → (∀ n, l = some n → Γ.names (n, false)) →
    NiceAll Γ e.classes U false (fun _ => .any) 0 elems →
    OkB Γ U w (Post Γ v (some (.set none)) (.set l elems)) s (setU f e s wi w (.set l elems))
  anyElems : ∀ {U w v s m elems} (wi n : Nat), Pre Γ w v s → NiceAll Γ e.classes U false (fun _ => .any) m elems →
    OkB Γ U w (fun s' => s'.noArity = false ∧ (elems = [] → n ≠ 0) ∧
      ∀ (k : Nat) x, elems[k]? = some x → Fits Γ false v (some .any) x) s (anyElems f e s wi w n elems)
  count : ∀ {U s m elems n s'}, Known Γ s → NiceAll Γ e.classes U false (fun _ => .any) m elems →
    setCount f e s elems = some (n, s') → Keep Γ U s s'
  setC : ∀ {U w v s l elems c u i} (wi : Nat), e.classes c.name = some c → UseOk U s i u → Pre Γ w v s →
    (∀ n, l = some n → Γ.names (n, false)) → NiceAll Γ e.classes U false (elemAt (some (.set (some (c, i))))) 0 elems →
    OkB Γ U w (Post Γ v (some (.set (some (c, i)))) (.set l elems)) s (setC f e s wi w c u (.set l elems))
  setElems : ∀ {U w v s elems c u i} (wi : Nat), e.classes c.name = some c → UseOk U s i u → Pre Γ w v s →
    NiceAll Γ e.classes U false (elemAt (some (.set (some (c, i))))) 0 elems →
    OkB Γ U w (fun s' => s'.noArity = false ∧ elems ≠ [] ∧ (i = .cls → elems.length = arity c) ∧
      ∀ (k : Nat) x, elems[k]? = some x → Fits Γ false v (elemWant e.classes c i k) x) s (setElems f e s wi w c u elems)
  clsElems : ∀ {U w v s elems c u i n} (wi : Nat), e.classes c.name = some c → UseOk U s i u → Pre Γ w v s →
    NiceAll Γ e.classes U false (elemAt (some (.set (some (c, i))))) n elems →
    OkB Γ U w (fun s' => s'.noArity = false ∧ (elems = [] → n ≠ 0) ∧ (i = .cls → n + elems.length = arity c) ∧
      ∀ (k : Nat) x, elems[k]? = some x → Fits Γ false v (elemWant e.classes c i (n + k)) x) s
      (clsElems f e s wi w c u (if i = .cls then arity c else 0xFFFF) n elems)

theorem level_zero : Level Γ e 0 where
  any := fun _ _ _ _ => by simp [readAny, Ok]
  lit := fun _ _ _ _ _ => by simp [readLit, Ok]
  expr := fun _ _ _ _ _ _ => by simp [readExpr, Ok]
  set := fun _ _ _ _ _ => by simp [readSet, Ok]
  setBy := fun _ _ _ _ _ _ _ => by simp [readSet, Ok]
  mem := fun _ _ _ => by simp [readMember, OkW]
  exprT := fun _ _ _ _ _ => by simp [exprT, Ok]
  exprC := fun _ _ _ _ _ => by simp [exprC, Ok]
  body := fun _ _ _ _ => by simp [exprBody, OkB]
  tail := fun _ _ _ => by simp [exprTail, OkB]
  args := fun _ _ _ _ _ _ _ => by simp [exprArgs]
  setU := fun _ _ _ _ => by simp [setU, OkB]
  anyElems := fun _ _ _ _ => by simp [anyElems, OkB]
  count := fun _ _ h => by simp [setCount] at h
  setC := fun _ _ _ _ _ _ => by simp [setC, OkB]
  setElems := fun _ _ _ _ _ => by simp [setElems, OkB]
  clsElems := fun _ _ _ _ _ => by simp [clsElems, OkB]

end Verif.Typed
