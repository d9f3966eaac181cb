import Verif.Compile.Main

/-! # Objects, views and sources -/
namespace Verif.Compile
open Verif.Macro Verif.Classes Verif.Atom

/-- The limits under which sources are read as they should be. -/
structure Tame (P : Limits) : Prop where
  plain : Plain P
  use : ∀ m us, P.use m us → ∀ q ∈ us, q.1 = m.cls → q.2 = m.iter
  lblAny : ∀ c, P.lbl .any c → c.type ≠ .set ∧ c.type ≠ .cls
  lblExpr : ∀ d c, ¬ P.lbl (.expr (some d)) c

theorem TopReads.mono {code : List Word} {H H' : List Name} {R : List Nat} {t : Top} (h : TopReads code H R t) (hH : H <+: H') :
    TopReads code H' R t := by
  refine ⟨h.1, h.2.1, fun k x hk => ?_⟩
  have := h.2.2 k x hk
  clear h hk
  generalize 1 + k = i at this
  induction this with
  | word h => exact .word h
  | var hk h hx => exact .var hk h (prefix_get hH hx)
  | obj hk h ho => exact .obj hk h ho
  | time hj hij h ha hv => exact .time hj hij h ha hv
  | str hj hij h hl ha hs => exact .str hj hij h hl ha hs
  | node hj hij h ha hn _ ih => exact .node hj hij h ha hn ih
  | assign hj hij hv hx h ha hn _ ih => exact .assign hj hij hv (prefix_get hH hx) h ha hn ih

/-- One view. -/
theorem view_ok {Q : Limits} {L : Lang} {e : Env} {v : Class} {elems : List Syn} {kids : List Tree} {D D1 : List Name}
    (G : Good Q L e) (hL : LvlOk L e 0) (hd : getDescriptor v.atom = 0xC2) (hm : v.members.length = arity v)
    (h0 : 0 < arity v) (hn : elems.length = arity v)
    (ha : Means Q L ((v.members.map Pos.mem).zip elems) D kids D1) (hf : Top.fits ⟨v.atom, kids⟩) :
    ∃ f0, ∀ f ≥ f0, ∀ s : St, Inv L s → s.lvl = 0 → (∀ y ∈ D, y ∈ s.hlp) →
      ∃ s', readSet f e { s with code := [], refs := [], ext := 0 } 0 true true (some (v, .own .cls)) (.set none elems) = .yes s' ∧
        Inv L s' ∧ s'.lvl = 0 ∧ (∀ y ∈ D1, y ∈ s'.hlp) ∧ s.hlp <+: s'.hlp ∧ TopReads s'.code s'.hlp s'.refs ⟨v.atom, kids⟩ := by
  obtain ⟨f0, hS⟩ := means_steps G true ha
  have hlen : ((v.members.map Pos.mem).zip elems).length = arity v := by simp; omega
  have hkl : kids.length = arity v := by rw [hS.length, hlen]
  have hlt : arity v < 256 := (getAtomCount v.atom).isLt
  have hmap : ((v.members.map Pos.mem).zip elems).map (·.2) = elems := zip_snd (by simp; omega)
  refine ⟨f0 + arity v + 8, fun f hf' s hI hl hD => ?_⟩
  obtain ⟨g, rfl⟩ : ∃ g, f = g + 1 + 1 := ⟨f - 2, by omega⟩
  simp only [Top.fits] at hf
  have hI2 : Inv L { s with code := [v.atom], refs := [], ext := 1 + arity v } :=
    ⟨hI.nodup, hI.names, List.nodup_nil, by simp, hI.locals, hI.noArity⟩
  obtain ⟨s', h1, h2, h3⟩ := setElems_run (c := v) (i := .cls) (u := .own .cls) hS (fun k q hq => by
      rw [List.getElem?_zip_eq_some] at hq
      have := hq.1
      rw [List.getElem?_map] at this
      exact this) (by omega) (fun _ => hlen) g (by omega) (wi := 1) (s := { s with code := [v.atom], refs := [], ext := 1 + arity v })
    rfl hI2 (by simp only [hl]; exact hL) hD (fun _ => ⟨by simp only; omega, by simp only; omega⟩)
  rw [hmap] at h1
  refine ⟨s', ?_, h2.same.inv, h3.trans hl, h2.same.dom, h2.same.hlp, ?_⟩
  · have : setC (g + 1) e { s with code := [], refs := [], ext := 0 } 0 true v (.own .cls) (.set none elems) = .yes s' := by
      simp only [setC, if_true, hd, useOf, ne_eq, reduceCtorEq, not_false_eq_true, and_self, app]
      exact h1
    simp only [readSet, readNilSet, readVar, readRef, readWild, or_no, this, or_yes]
  · obtain ⟨a1, a2, a3⟩ := h2.wrote rfl
    refine ⟨a2 0 v.atom (by simp only; omega) (.inl (by omega)) rfl, hkl.symm, fun k x hk => (a3 k x hk).reads⟩

/-- All views. -/
theorem views_ok {Q : Limits} {L : Lang} {e : Env} {v : Class} (G : Good Q L e) (hL : LvlOk L e 0)
    (hd : getDescriptor v.atom = 0xC2) (hm : v.members.length = arity v) (h0 : 0 < arity v)
    {xs : List Syn} {D : List Name} {ts : List Top} (h : ViewsMean Q L v xs D ts) :
    ∃ f0, ∀ f ≥ f0, ∀ s : St, Inv L s → s.lvl = 0 → (∀ y ∈ D, y ∈ s.hlp) →
      ∃ vs s', readViews f e v s xs = some (vs, s') ∧ Inv L s' ∧ s'.lvl = 0 ∧ s.hlp <+: s'.hlp ∧
        List.Forall₂ (fun w t => TopReads w.code s'.hlp w.refs t) vs ts := by
  induction h with
  | nil => exact ⟨0, fun f _ s hI hl _ => ⟨[], s, rfl, hI, hl, List.prefix_rfl, .nil⟩⟩
  | cons hn ha hf hr ih =>
    obtain ⟨f0, hv⟩ := view_ok G hL hd hm h0 hn ha hf
    obtain ⟨f1, ih⟩ := ih
    refine ⟨max f0 f1, fun f hf s hI hl hD => ?_⟩
    obtain ⟨s1, a1, a2, a3, a4, a5, a6⟩ := hv f (by omega) s hI hl hD
    obtain ⟨vs, s', b1, b2, b3, b4, b5⟩ := ih f (by omega) s1 a2 a3 a4
    refine ⟨⟨s1.code, s1.refs⟩ :: vs, s', ?_, b2, b3, a5.trans b4, .cons (a6.mono b4) b5⟩
    simp only [readViews, a1, b1, Option.map_some]

/-- The labels known so far have no type. -/
def Untyped (g : Name → Option (Nat × Ret)) : Prop := ∀ x o t, g x = some (o, t) → t = .any

theorem label_untyped {W : World} {g : Name → Option (Nat × Ret)} {n : Nat} {o : Source} (h : Untyped g) : Untyped (label W.sys g n o) := by
  intro x k t hx
  cases hl : o.label with
  | none => simp only [label, hl] at hx; exact h x k t hx
  | some l =>
    cases hs : W.sys o.head with
    | none => simp only [label, hl, hs] at hx; exact h x k t hx
    | some c =>
      simp only [label, hl, hs] at hx
      by_cases hxl : x = l
      · rw [if_pos hxl] at hx
        simp only [Option.some.injEq, Prod.mk.injEq] at hx
        rw [← hx.2]; exact (W.sub _ _ hs).2
      · rw [if_neg hxl] at hx; exact h x k t hx

theorem readObject_eq {f : Nat} {classes sys : Name → Option Class} {allow : Bool} {g : Name → Option (Nat × Ret)} {n : Nat} {s : St}
    {o : Source} {c : Class} (hc : sys o.head = some c) (hl : ∀ l, o.label = some l → g l = none) (h0 : arity c ≠ 0) :
    readObject f classes sys allow g n s o =
      match exprTail f ⟨classes, sys, label sys g n o, c, c.name = "mdl".toList ∨ c.name = "cst".toList, allow⟩
          { s with code := [c.atom], refs := [], ext := arity c + 1, hlp := [], locals := fun _ => none } 1 true c o.args with
      | .yes s1 =>
        match o.views with
        | none => some (⟨s1.code, s1.refs, []⟩, label sys g n o, s1)
        | some vs =>
          if vs.isEmpty then none
          else
            match viewClass ⟨classes, sys, label sys g n o, c, c.name = "mdl".toList ∨ c.name = "cst".toList, allow⟩ with
            | none => none
            | some v => (readViews f ⟨classes, sys, label sys g n o, v, c.name = "mdl".toList ∨ c.name = "cst".toList, allow⟩ v s1 vs).map
                fun p => (⟨s1.code, s1.refs, p.1⟩, label sys g n o, p.2)
      | _ => none := by
  cases ho : o.label with
  | none => simp only [readObject, label, hc, ho, Option.any_none, Bool.false_eq_true, if_false, h0]; rfl
  | some l => simp only [readObject, label, hc, ho, Option.any_some, hl l ho, Option.isSome_none, Bool.false_eq_true, if_false, h0]; rfl

/-- An object. -/
theorem object_ok {W : World} {P : Limits} (hP : Tame P) {g : Name → Option (Nat × Ret)}
    {n : Nat} {o : Source} {t : ObjTree} (hg : Untyped g) (hl : ∀ l, o.label = some l → g l = none)
    (h : ObjMeans P W (label W.sys g n o) o t) :
    ∃ f0, ∀ f ≥ f0, ∀ s : St, s.lvl = 0 → s.noArity = false →
      ∃ b s', readObject f W.classes W.sys W.allow g n s o = some (b, label W.sys g n o, s') ∧ s'.lvl = 0 ∧ s'.noArity = false ∧
        ObjReads b t := by
  obtain ⟨hc, hm, h0, hV, hG, hn, ha, hf, hv⟩ := h
  rename_i c V G kids D views
  have hg' := label_untyped (W := W) (n := n) (o := o) hg
  have hro := fun f s => readObject_eq (f := f) (classes := W.classes) (allow := W.allow) (n := n) (s := s) hc hl (by omega)
  generalize hgl : label W.sys g n o = gl at *
  let e : Env := ⟨W.classes, W.sys, gl, c, c.name = "mdl".toList ∨ c.name = "cst".toList, W.allow⟩
  have A : Agrees (bodyLang W gl c V G) e := by
    refine ⟨rfl, rfl, rfl, rfl, ?_, fun h => h, (W.sub _ _ hc).2, hg', fun x c h => (W.sub x c h).2, hV, hG⟩
    intro h
    simp only [bodyLang, Bool.or_eq_true, Bool.and_eq_true, decide_eq_true_eq] at h
    exact h
  have G1 : Good P (bodyLang W gl c V G) e := ⟨A, hP.plain, hP.use, hP.lblAny, hP.lblExpr⟩
  obtain ⟨f0, hS⟩ := means_steps G1 true ha
  have hkl : kids.length = arity c := by rw [hS.length]; simp; omega
  have hL : e.inHlp = true ∨ LvlOk (bodyLang W gl c V G) e 0 := by
    cases hh : isHlp c with
    | true => exact .inl hh
    | false =>
      refine .inr (.inr ⟨hh, fun h => ?_⟩)
      simp only [bodyLang, hh, Bool.false_or, Bool.and_eq_true] at h
      exact h.1
  simp only [Top.fits] at hf
  have body : ∀ f ≥ f0 + arity c + 2, ∀ s : St, s.lvl = 0 → s.noArity = false →
      ∃ s', exprTail f e { s with code := [c.atom], refs := [], ext := arity c + 1, hlp := [], locals := fun _ => none } 1 true c o.args =
          .yes s' ∧ Inv (bodyLang W gl c V G) s' ∧ s'.lvl = 0 ∧ (∀ y ∈ D, y ∈ s'.hlp) ∧ TopReads s'.code s'.hlp s'.refs ⟨c.atom, kids⟩ := by
    intro f hf' s hs1 hs2
    have hI : Inv (bodyLang W gl c V G) { s with code := [c.atom], refs := [], ext := arity c + 1, hlp := [], locals := fun _ => none } :=
      ⟨List.nodup_nil, by simp, List.nodup_nil, by simp, rfl, hs2⟩
    obtain ⟨s', h1, h2, h3⟩ := exprTail_all (wi := 1) hS hm hn (by simp only [hs1]; exact hL) hI (by simp)
      (fun _ => ⟨by simp only; omega, by simp only; omega⟩) (f - arity c - 2) (by omega)
    rw [show f - arity c - 2 + arity c + 2 = f by omega] at h1
    obtain ⟨a1, a2, a3⟩ := h2.wrote rfl
    exact ⟨s', h1, h2.same.inv, h3.trans hs1, h2.same.dom, a2 0 c.atom (by simp only; omega) (.inl (by omega)) rfl, hkl.symm,
      fun k x hk => (a3 k x hk).reads⟩
  cases hvs : o.views with
  | none =>
    rw [hvs] at hv
    simp only at hv
    subst hv
    refine ⟨f0 + arity c + 2, fun f hf s hs1 hs2 => ?_⟩
    obtain ⟨s', b1, b2, b3, b4, b5⟩ := body f hf s hs1 hs2
    refine ⟨⟨s'.code, s'.refs, []⟩, s', ?_, b3, b2.noArity, s'.hlp, b2.nodup, b5, .nil⟩
    rw [hro]
    simp only [e] at b1
    simp only [b1, hvs]
  | some xs =>
    rw [hvs] at hv
    obtain ⟨hne, v, hvc, hvn, hvd, hvm, hv0, hvs'⟩ := hv
    have hview : viewClass e = some v := by
      rw [← hvc]
      simp only [viewClass, viewsOf, e, List.mem_cons, List.not_mem_nil, or_false]
    have A2 : Agrees (viewLang W gl c V G) { e with cur := v } := by
      refine ⟨rfl, rfl, rfl, rfl, fun h => .inr ⟨h, hvn⟩, fun h => (by cases h), W.view _ _ hvc, hg', fun x c h => (W.sub x c h).2, hV, hG⟩
    have G2 : Good P (viewLang W gl c V G) { e with cur := v } := ⟨A2, hP.plain, hP.use, hP.lblAny, hP.lblExpr⟩
    obtain ⟨f1, hV2⟩ := views_ok G2 (.inr ⟨rfl, fun h => h⟩) hvd hvm hv0 hvs'
    refine ⟨max (f0 + arity c + 2) f1, fun f hf s hs1 hs2 => ?_⟩
    obtain ⟨s1, b1, b2, b3, b4, b5⟩ := body f (by omega) s hs1 hs2
    obtain ⟨vs, s', c1, c2, c3, c4, c5⟩ := hV2 f (by omega) s1 ⟨b2.nodup, b2.names, b2.rnodup, b2.objs, b2.locals, b2.noArity⟩ b3 b4
    refine ⟨⟨s1.code, s1.refs, vs⟩, s', ?_, c3, c2.noArity, s'.hlp, c2.nodup, b5.mono c4, c5⟩
    have hemp : xs.isEmpty = false := by cases xs <;> simp at hne ⊢
    rw [hro]
    simp only [e] at b1 hview c1
    simp only [b1, hvs, hemp, Bool.false_eq_true, if_false, hview, c1, Option.map_some]

/-- All objects. -/
theorem source_ok {W : World} {P : Limits} (hP : Tame P)
    {g : Name → Option (Nat × Ret)} {n : Nat} {src : List Source} {ts : List ObjTree} (h : SrcMeans P W g n src ts) :
    Untyped g → ∃ f0, ∀ f ≥ f0, ∀ s : St, s.lvl = 0 → s.noArity = false →
      ∃ objs, compileFrom f W.classes W.sys W.allow g n s src = some objs ∧ List.Forall₂ ObjReads objs ts := by
  induction h with
  | nil => intro _; exact ⟨0, fun f _ s _ _ => ⟨[], rfl, .nil⟩⟩
  | cons hl hm hr ih =>
    intro hg
    obtain ⟨f0, h1⟩ := object_ok hP hg hl hm
    obtain ⟨f1, h2⟩ := ih (label_untyped hg)
    refine ⟨max f0 f1, fun f hf s hs1 hs2 => ?_⟩
    obtain ⟨b, s', a1, a2, a3, a4⟩ := h1 f (by omega) s hs1 hs2
    obtain ⟨objs, b1, b2⟩ := h2 f (by omega) s' a2 a3
    refine ⟨b :: objs, ?_, .cons a4 b2⟩
    simp only [compileFrom, a1, b1, Option.map_some]

end Verif.Compile
