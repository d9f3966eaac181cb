import Verif.Compile.Steps

/-! # Reading expressions and sets -/
namespace Verif.Compile
open Verif.Macro Verif.Classes Verif.Atom

variable {P : Limits} {L : Lang} {e : Env} {U : Name → Iter → Prop}

/-! ## Nodes -/

theorem didAll_fill {s s' : St} {wi n : Nat} {ts : List Tree} {D : List Name} (h : DidAll L U true (fill s wi n) s' wi ts D)
    (hn : n ≤ ts.length) : DidAll L U true s s' wi ts D := by
  rw [fill_eq] at h
  obtain ⟨h1, h2, h3⟩ := h.wrote rfl
  refine ⟨⟨h.same.inv, h.same.dom, h.same.hlp, h.same.refs, h.same.use⟩, fun _ => ⟨h1, ?_, h3⟩, by simp⟩
  intro i a hi hne ha
  exact h2 i a hi hne (putAll_keep (by simp; omega) ha)

/-- A pointer, a head and what follows it. -/
theorem did_node {s s2 s' : St} {wi : Nat} {a ptr : Word} {l : Option Name} {kids : List Tree} {D0 D : List Name}
    (h12 : Same L U s s2 D0) (hc : s2.code = Words.put (Words.put s.code wi ptr) s.ext a) (he : s2.ext = s.ext + 1 + kids.length)
    (h : DidAll L U true s2 s' (s.ext + 1) kids D) (hl : s'.lvl = s.lvl) (hn : (getAtomCount a).toNat = kids.length)
    (hr : Room s wi (.node l a kids))
    (hp : (l = none ∧ ptr = iPointer (BitVec.ofNat 16 s.ext)) ∨ (∃ x v, l = some x ∧ v < 255 ∧ s.hlp[v]? = some x ∧
      ptr = assignmentPointer (BitVec.ofNat 8 v) (BitVec.ofNat 16 s.ext))) :
    Did L U true s s' wi (.node l a kids) D := by
  obtain ⟨h1, h2, h3⟩ := h.wrote rfl
  simp only [Room, Tree.size] at hr
  have hs := h12.trans h.same
  have keep : ∀ i b, i < s.ext → i ≠ wi → s.code[i]? = some b → s'.code[i]? = some b := by
    intro i b hi hne hb
    refine h2 i b (by omega) (by omega) ?_
    rw [hc]
    exact put_keep (by omega) (put_keep (Ne.symm hne) hb)
  have hptr : s'.code[wi]? = some ptr := by
    refine h2 wi ptr (by omega) (by omega) ?_
    rw [hc]
    exact put_keep (by omega) (Words.put_get_self _ _ _)
  have hhd : s'.code[s.ext]? = some a := by
    refine h2 s.ext a (by omega) (by omega) ?_
    rw [hc]
    exact Words.put_get_self _ _ _
  have hk : ∀ (k : Nat) t, kids[k]? = some t → ReadsIn s'.code s'.hlp s'.refs s.ext s'.ext (s.ext + 1 + k) t := by
    intro k t hk
    exact (h3 k t hk).mono (fun j a _ ha => ha) List.prefix_rfl List.prefix_rfl (by omega) (Nat.le_refl _)
  refine ⟨hs, hl, fun _ => ⟨by simp only [Tree.size]; omega, keep, ?_⟩, by simp⟩
  rcases hp with ⟨rfl, rfl⟩ | ⟨x, v, rfl, hv, hx, rfl⟩
  · exact .node (by omega) (by omega) (Nat.le_refl _) (by omega) hptr hhd hn hk
  · exact .assign (by omega) (by omega) (Nat.le_refl _) (by omega) hv (prefix_get hs.hlp hx) hptr hhd hn hk

/-! ## Kinds of places -/

/-- The class says how it is to be used. -/
def Uses (U : Name → Iter → Prop) (s : St) (i : Iter) : Use → Prop
  | .own j => j = i
  | .key n => U n i ∧ s.useAs n = i

theorem Uses.of {s : St} {i : Iter} {u : Use} (h : Uses U s i u) : useOf s u = i := by
  cases u with
  | own j => exact h
  | key n => exact h.2

theorem Uses.same {s s' : St} {i : Iter} {u : Use} {D : List Name} (h : Uses U s i u) (hs : Same L U s s' D) : Uses U s' i u := by
  cases u with
  | own j => exact h
  | key n => exact ⟨h.1, hs.use n i h.1 h.2⟩

theorem Uses.mono {V : Name → Iter → Prop} {s : St} {i : Iter} {u : Use} (h : Uses U s i u) (hV : ∀ n i, U n i → V n i) : Uses V s i u := by
  cases u with
  | own j => exact h
  | key n => exact ⟨hV _ _ h.1, h.2⟩

/-- Reading at this place leaves how classes are used as `U` has it. -/
def Leaves (U : Name → Iter → Prop) (p : Pos) : Prop := ∀ q ∈ own p, ∀ i, U q.1 i → i = q.2

/-- And how the class of this place is used. -/
def With (U : Name → Iter → Prop) (p : Pos) : Name → Iter → Prop := fun n i => U n i ∨ (n, i) ∈ own p

/-- Reading by places is reading by kinds. -/
theorem pos_kind {p : Pos} {K : Kind} (A : Agrees L e) (hk : kindOf L.classes p = some K)
    (hm : Leaves U p) (s : St) :
    ∃ us u d, d ≤ 1 ∧ (∀ n i, U n i → s.useAs n = i → us n = i) ∧
      (∀ c i, K = .set (some (c, i)) → Uses (With U p) { s with useAs := us } i u) ∧
      ∀ f wi w x, readPos (f + d) e s wi w p x = readK f e { s with useAs := us } wi w u K x := by
  cases p with
  | any =>
    simp only [kindOf, Option.some.injEq] at hk; subst hk
    exact ⟨s.useAs, .own .cls, 0, by omega, fun _ _ _ h => h, by simp, fun _ _ _ _ => rfl⟩
  | ex c =>
    simp only [kindOf, Option.some.injEq] at hk; subst hk
    refine ⟨s.useAs, .own .cls, 0, by omega, fun _ _ _ h => h, ?_, ?_⟩
    · intro c i; unfold exprKind; split <;> simp
    · intro f wi w x
      unfold exprKind
      by_cases h : c.name = "xpr".toList
      · rw [if_pos h]; exact readExpr_xpr _ _ _ _ _ _ _ _ h
      · rw [if_neg h]; rfl
  | se c =>
    simp only [kindOf, Option.some.injEq] at hk; subst hk
    refine ⟨s.useAs, .own .cls, 0, by omega, fun _ _ _ h => h, ?_, fun _ _ _ _ => rfl⟩
    intro c i h
    simp only [Kind.set.injEq, Option.some.injEq, Prod.mk.injEq] at h
    exact h.2
  | mem m =>
    by_cases hc : m.cls = []
    · simp only [kindOf, hc, if_true] at hk
      refine ⟨s.useAs, .own .cls, 1, by omega, fun _ _ _ h => h, ?_, ?_⟩
      · intro c i h
        subst h
        cases hr : m.read <;> simp [hr] at hk
      · intro f wi w x
        simp only [readPos, readMember, hc, if_true]
        cases hr : m.read <;> simp [hr] at hk <;> subst hk <;> rfl
    · simp only [kindOf, hc, if_false] at hk
      have ho : (m.cls, m.iter) ∈ own (.mem m) := by simp [own, hc]
      cases hcl : L.classes m.cls with
      | none => simp [hcl] at hk
      | some c =>
        simp only [hcl] at hk
        refine ⟨fun n => if n = m.cls then m.iter else s.useAs n, .key m.cls, 1, by omega, ?_, ?_, ?_⟩
        · intro n i hi hn
          by_cases h : n = m.cls
          · subst h
            simp [hm _ ho i hi]
          · simp [h, hn]
        · intro c' i h
          subst h
          have hi : m.iter = i := by
            cases hr : m.read <;> simp [hr, exprKind] at hk
            · split at hk <;> simp at hk
            · exact hk.2
          subst hi
          exact ⟨.inr ho, by simp⟩
        · intro f wi w x
          simp only [readPos, readMember, hc, if_false, A.classes, hcl]
          cases hr : m.read <;> simp [hr] at hk <;> subst hk
          · unfold exprKind
            by_cases h : c.name = "xpr".toList
            · rw [if_pos h]; exact readExpr_xpr _ _ _ _ _ _ _ _ h
            · rw [if_neg h]; rfl
          · rfl

/-- An element is read as it should be, by its kind. -/
def StepK (L : Lang) (e : Env) (V U : Name → Iter → Prop) (f : Nat) (w : Bool) (K : Kind) (x : Syn) (D : List Name) (t : Tree)
    (D1 : List Name) : Prop :=
  ∀ s wi u, (∀ c i, K = .set (some (c, i)) → Uses V s i u) → Inv L s → LvlOk L e s.lvl → (∀ y ∈ D, y ∈ s.hlp) →
    (w = true → Room s wi t) → ∃ s', readK f e s wi w u K x = .yes s' ∧ Did L U w s s' wi t D1

theorem StepK.step {w : Bool} {p : Pos} {K : Kind} {x : Syn} {D D1 : List Name} {t : Tree} {f0 : Nat} (A : Agrees L e)
    (hk : kindOf L.classes p = some K) (hm : Leaves U p)
    (h : ∀ K', (K' = K ∨ (w = false ∧ K' = .any)) → ∀ f ≥ f0, StepK L e (With U p) U f w K' x D t D1) :
    ∀ f ≥ f0 + 1, Step L e U f w p x D t D1 := by
  intro f hf p' hp' s wi hI hL hD hr
  have key : ∀ K', (K' = K ∨ (w = false ∧ K' = .any)) → kindOf L.classes p' = some K' →
      Leaves U p' → (∀ n i, With U p' n i → With U p n i) → ∃ s', readPos f e s wi w p' x = .yes s' ∧ Did L U w s s' wi t D1 := by
    intro K' hK' hk' hm' hw'
    obtain ⟨us, u, d, hd, hus, hu, hread⟩ := pos_kind (U := U) A hk' hm' s
    have hI' : Inv L { s with useAs := us } := ⟨hI.nodup, hI.names, hI.rnodup, hI.objs, hI.locals, hI.noArity⟩
    obtain ⟨s', h1, h2⟩ := h K' hK' (f - d) (by omega) { s with useAs := us } wi u (fun c i h => (hu c i h).mono hw') hI' hL hD hr
    refine ⟨s', by rw [← h1, ← hread, Nat.sub_add_cancel (by omega)], ?_⟩
    exact did_after (s1 := { s with useAs := us }) (D1 := D) ⟨hI', hD, List.prefix_rfl, List.prefix_rfl, hus⟩ rfl rfl rfl h2
  rcases hp' with rfl | ⟨hw, rfl⟩
  · exact key K (.inl rfl) hk hm fun _ _ h => h
  · exact key .any (.inr ⟨hw, rfl⟩) rfl (by simp [Leaves, own]) fun n i h => .inl (by simpa [With, own] using h)

theorem Leaf.any {K : Kind} {D D1 : List Name} {x : Syn} {t : Tree} (h : Leaf P L K D x t D1) : Leaf P L .any D x t D1 := by
  cases h with
  | nilw h => exact .nilw rfl
  | empty h => exact .empty trivial
  | this h => exact .this trivial
  | num h => exact .num trivial
  | ts h => exact .ts trivial
  | dur h => exact .dur trivial
  | str h hl hs => exact .str trivial hl hs
  | bool h => exact .bool trivial
  | node h hd => exact .node trivial hd
  | device h hd => exact .device trivial hd
  | wild hv => exact .wild hv
  | var hv hg hc hx => exact .var hv hg hc hx
  | nameVar hx hb => exact .nameVar hx hb
  | nameObj h hg hc ho => exact .nameObj trivial hg hc ho
  | nameFn h hc hb => exact .nameFn trivial hc hb

/-! ## Expressions -/

/-- How far the body of an expression is. -/
def depth : Kind → Nat
  | .any => 3
  | _ => 2

theorem depth_le (K : Kind) : depth K ≤ 3 := by cases K <;> simp [depth]

theorem exprBody_idle (g : Nat) (s : St) (wi : Nat) (c : Class) (l : Option Name) (args : List Syn) :
    exprBody g e s wi false c l args = exprBody g e s wi false c none args := by
  cases g <;> simp [exprBody]

theorem ret_inj {j k : Lit} (h : j.ret = k.ret) : j = k := by
  cases j <;> cases k <;> first | rfl | exact absurd h (by simp [Lit.ret])

/-- What an expression is read by. -/
theorem readK_expr {w : Bool} {K : Kind} {h : Name} {c : Class} {l : Option Name} {args : List Syn} {s s' : St} {wi g : Nat}
    {D : List Name} (A : Agrees L e) (hI : Inv L s) (hD : ∀ y ∈ D, y ∈ s.hlp)
    (hc : L.classes h = some c) (hsys : L.sys h = none ∨ L.sys h = some c) (ho : exprOk h c K)
    (hl : ∀ v, l = some v → L.inHlp = true ∧ v ∈ D)
    (hw : l = none ∨ w = false ∨ (K = .any → c.type ≠ .set ∧ c.type ≠ .cls))
    (hx : l = none ∨ ∀ d, K ≠ .expr (some d))
    (hb : exprBody g e s wi w c l args = .yes s') (u : Use) :
    readK (g + depth K) e s wi w u K (.expr l h args) = .yes s' := by
  have hs : ∀ k, readSimple k e s wi w (.expr l h args) = .no s := by
    intro k
    cases l with
    | none => simp [readSimple, readNil, readVar, readRef, readWild, readLiteral]
    | some v =>
      have := (hI.names v (hD v (hl v rfl).2)).2.2
      simp [readSimple, readNil, readVar, readRef, readWild, readLiteral, A.classes, this]
  have hT : ∀ t, head e t h = some c → exprT (g + 1) e s wi w t (.expr l h args) = .yes s' := by
    intro t ht
    cases l with
    | none => simp only [exprT, ht, hb]
    | some v => simp only [exprT, ht, A.inHlp, (hl v rfl).1, if_true, hb]
  have hT' : exprBody g e s wi w c none args = .yes s' → ∀ t, head e t h = some c →
      exprT (g + 1) e s wi w t (.expr none h args) = .yes s' := by
    intro hb t ht
    simp only [exprT, ht, hb]
  have hany : head e .any h = some c := by
    rcases hsys with h | h <;> simp [head, A.sys, A.classes, h, hc]
  have hret : ∀ k : Lit, c.type = .any ∨ c.type = k.ret → head e k.ret h = some c := by
    intro k hk
    simp [head, ret_ne_any, A.classes, hc, hk]
  have hno : ∀ k : Lit, ¬ (c.type = .any ∨ c.type = k.ret) → head e k.ret h = none := by
    intro k hk
    simp only [head, ret_ne_any, A.classes, hc, if_false]
    exact if_neg hk
  have lit : ∀ k : Lit, ∀ b, c.type = .any ∨ c.type = k.ret → readLit (g + 2) e s wi w b k (.expr l h args) = .yes s' := by
    intro k b hk
    simp only [readLit, hs, or_no, hT _ (hret k hk), or_yes]
  have nolit : ∀ k : Lit, ¬ (c.type = .any ∨ c.type = k.ret) → readLit (g + 2) e s wi w false k (.expr l h args) = .no s := by
    intro k hk
    have : exprT (g + 1) e s wi w k.ret (.expr l h args) = .no s := by simp only [exprT, hno k hk]
    simp [readLit, hs, this]
  cases K with
  | any =>
    simp only [depth, readK, readAny]
    by_cases ha : c.type = .any
    · simp only [lit .number false (.inl ha), or_yes]
    by_cases hk : ∃ k : Lit, c.type = k.ret
    · obtain ⟨k, hk⟩ := hk
      have y : readLit (g + 2) e s wi w false k (.expr l h args) = .yes s' := lit k false (.inr hk)
      have n : ∀ j : Lit, j ≠ k → readLit (g + 2) e s wi w false j (.expr l h args) = .no s := by
        intro j hj
        refine nolit j ?_
        rintro (h | h)
        · exact ha h
        · exact hj (ret_inj (by rw [← h, hk]))
      cases k <;> simp [y, n]
    · have n : ∀ j : Lit, readLit (g + 2) e s wi w false j (.expr l h args) = .no s := by
        intro j
        exact nolit j (by rintro (h | h); exacts [ha h, hk ⟨j, h⟩])
      have hset : c.type = .set ∨ c.type = .cls := by
        cases ht : c.type with
        | any => exact absurd ht ha
        | set => exact .inl rfl
        | cls => exact .inr rfl
        | number => exact absurd ⟨.number, ht⟩ hk
        | timestamp => exact absurd ⟨.timestamp, ht⟩ hk
        | duration => exact absurd ⟨.duration, ht⟩ hk
        | boolean => exact absurd ⟨.boolean, ht⟩ hk
        | string => exact absurd ⟨.string, ht⟩ hk
        | node => exact absurd ⟨.node, ht⟩ hk
        | device => exact absurd ⟨.device, ht⟩ hk
        | function => exact absurd ⟨.function, ht⟩ hk
      have hb' : exprBody g e s wi w c none args = .yes s' := by
        rcases hw with rfl | rfl | hw
        · exact hb
        · rw [← exprBody_idle g s wi c l args]; exact hb
        · rcases hset with h | h
          · exact absurd h (hw rfl).1
          · exact absurd h (hw rfl).2
      have hx : readExpr (g + 2) e s wi w false none (.expr none h args) = .yes s' := by
        simp [readExpr, readNilX, readVar, readRef, readWild, hT' hb' .any hany]
      simp [n, readClass, strip, hx]
  | lit k => exact lit k true ho
  | expr d =>
    simp only [depth, readK]
    cases d with
    | none => simp [readExpr, readNilX, readVar, readRef, readWild, hT .any hany]
    | some d =>
      obtain ⟨rfl, hn⟩ := ho
      obtain rfl := hx.resolve_right (fun h => h d rfl)
      by_cases hm : d.name = "xpr".toList
      · rw [readExpr_xpr _ _ _ _ _ _ _ _ hm]
        simp [readExpr, readNilX, readVar, readRef, readWild, hT .any hany]
      · have : Option.filter (fun c : Class => decide (c.name ≠ "xpr".toList)) (some d) = some d := by
          rw [Option.filter_some]; exact if_pos (decide_eq_true hm)
        simp only [readExpr, this, readNilX, readVar, readRef, readWild, or_no, exprC, hn, if_true, hb, or_yes]
  | set p => exact absurd ho id

/-! ## Tails -/

theorem lvl_args {c : Class} {base : Nat} (h : e.inHlp = true ∨ LvlOk L e base) (n : Nat) (hn : n < arity c) :
    LvlOk L e (lvlIn (e.inHlp || isPattern e c) (if e.inHlp = true then (if arity c = 0 then 65535 else arity c - 1) else 0) base n) := by
  by_cases hh : e.inHlp = true
  · left
    simp only [hh, Bool.true_or, if_true, lvlIn, lvlAt, true_and, show arity c ≠ 0 by omega, if_false]
    by_cases h0 : n = 0
    · simp [h0]
    · simp only [h0, if_false]
      rw [if_pos (by omega)]; omega
  · have hb := h.resolve_left hh
    rcases hb with hb | hb
    · left
      simp only [lvlIn, lvlAt]
      split
      · omega
      · split <;> omega
    · exact .inr hb

/-- All members. -/
theorem exprTail_all {f0 : Nat} {w : Bool} {D D' : List Name} {kids : List Tree} {c : Class} {args : List Syn} {s : St} {wi : Nat}
    (h : Steps L e U f0 w ((c.members.map Pos.mem).zip args) D kids D') (hc : c.members.length = arity c)
    (hn : args.length = arity c) (hL : e.inHlp = true ∨ LvlOk L e s.lvl) (hI : Inv L s) (hD : ∀ y ∈ D, y ∈ s.hlp)
    (hr : w = true → wi + kids.length ≤ s.ext ∧ s.ext + sizes kids ≤ 4096) (f : Nat) (hf : f0 ≤ f) :
    ∃ s', exprTail (f + arity c + 2) e s wi w c args = .yes s' ∧ DidAll L U w s s' wi kids D' ∧ s'.lvl = s.lvl := by
  have hkl : kids.length = arity c := by rw [h.length]; simp [hc, hn]
  have key : ∀ s0 : St, Inv L s0 → s0.lvl = s.lvl → (∀ y ∈ D, y ∈ s0.hlp) → s0.ext = s.ext →
      ∃ s', exprArgs (f + arity c + 1) e s0 wi w c (e.inHlp || isPattern e c)
        (if e.inHlp = true then (if arity c = 0 then 65535 else arity c - 1) else 0) 0 args = .yes s' ∧
        DidAll L U w s0 s' wi kids D' ∧ s'.lvl = s.lvl := by
    intro s0 hI0 hl0 hD0 he0
    obtain ⟨s', h1, h2, h3⟩ := exprArgs_run (rest := []) (base := s.lvl) h (fun n hn => lvl_args hL n hn) hc args s0 wi 0 (f + 1) (by omega) rfl
      (by omega) hI0 (by rw [hl0]; simp [lvlAt]) hD0 (by rw [he0]; simpa using hr)
    simp only [List.append_nil, Nat.zero_add] at h1
    have hl : s'.lvl = s.lvl := by
      rw [h3, lvlAt, if_neg]
      rintro ⟨-, ha, hb⟩
      by_cases hh : e.inHlp = true
      · rw [if_pos hh, if_neg (by omega)] at hb; omega
      · rw [if_neg hh] at hb; omega
    refine ⟨s', ?_, by simpa using h2, hl⟩
    rw [show f + arity c + 1 = f + 1 + args.length by omega, h1, hn]
    simp [exprArgs, h2.same.inv.noArity]
  rw [show f + arity c + 2 = (f + arity c + 1) + 1 from rfl, exprTail]
  by_cases hw : w = true ∧ s.lvl > 0
  · obtain ⟨rfl, hlv⟩ := hw
    rw [if_pos ⟨rfl, hlv⟩]
    obtain ⟨s', h1, h2, h3⟩ := key (fill s wi (arity c)) (by rw [fill_eq]; exact ⟨hI.nodup, hI.names, hI.rnodup, hI.objs, hI.locals, hI.noArity⟩)
      (by rw [fill_eq]) (by rw [fill_eq]; exact hD) (by rw [fill_eq])
    exact ⟨s', h1, didAll_fill h2 (by omega), h3⟩
  · rw [if_neg hw]
    exact key s hI rfl hD rfl

end Verif.Compile
