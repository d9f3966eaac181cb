import Verif.Compile.Core

/-! # Elements are read as they should be -/
namespace Verif.Compile
open Verif.Macro Verif.Classes Verif.Atom

variable {P : Limits} {L : Lang} {e : Env} {U : Name → Iter → Prop}

/-- The compiler and the source agree; the class of a set is not used in another way in it; labels are not lost. -/
structure Good (P : Limits) (L : Lang) (e : Env) : Prop where
  agrees : Agrees L e
  plain : Plain P
  use : ∀ m us, P.use m us → ∀ q ∈ us, q.1 = m.cls → q.2 = m.iter
  lblAny : ∀ c, P.lbl .any c → c.type ≠ .set ∧ c.type ≠ .cls
  lblExpr : ∀ d c, ¬ P.lbl (.expr (some d)) c

/-- Reading these leaves how classes are used as `U` has it. -/
def Compat (L : Lang) (U : Name → Iter → Prop) (items : List (Pos × Syn)) : Prop :=
  ∀ q ∈ items, ∀ r ∈ uses L.classes q.1 q.2, ∀ i, U r.1 i → i = r.2

theorem own_uses {cl : Name → Option Class} {p : Pos} {x : Syn} {r : Name × Iter} (h : r ∈ own p) : r ∈ uses cl p x := by
  cases x <;> simp [uses, h]

theorem usesAll_mem {cl : Name → Option Class} {pos : Nat → Pos} {elems : List Syn} {x : Syn} {r : Name × Iter} :
    ∀ {k n : Nat}, elems[k]? = some x → r ∈ uses cl (pos (n + k)) x → r ∈ usesAll cl pos n elems := by
  induction elems with
  | nil => intro k n h; simp at h
  | cons y ys ih =>
    intro k n h hr
    rw [usesAll, List.mem_append]
    cases k with
    | zero =>
      simp only [List.getElem?_cons_zero, Option.some.injEq] at h
      subst h
      exact .inl hr
    | succ k =>
      exact .inr (ih (k := k) (n := n + 1) (by simpa using h) (by rwa [show n + 1 + k = n + (k + 1) by omega]))

theorem Compat.leaves {p : Pos} {x : Syn} {r : List (Pos × Syn)} (h : Compat L U ((p, x) :: r)) : Leaves U p :=
  fun q hq => h (p, x) List.mem_cons_self q (own_uses hq)

theorem Compat.tail {p : Pos} {x : Syn} {r : List (Pos × Syn)} (h : Compat L U ((p, x) :: r)) : Compat L U r :=
  fun q hq => h q (List.mem_cons_of_mem _ hq)

/-- Elements of something read, by where they stand. -/
theorem Compat.of {pos : Nat → Pos} {elems : List Syn} {items : List (Pos × Syn)}
    (hs : ∀ r ∈ usesAll L.classes pos 0 elems, ∀ i, U r.1 i → i = r.2)
    (hi : ∀ q ∈ items, ∃ k, elems[k]? = some q.2 ∧ pos k = q.1) : Compat L U items := by
  intro q hq r hr
  obtain ⟨k, h1, h2⟩ := hi q hq
  exact hs r (usesAll_mem h1 (by rwa [Nat.zero_add, h2]))

theorem zip_at {c : Class} {args : List Syn} {q : Pos × Syn} (h : q ∈ (c.members.map Pos.mem).zip args) :
    ∃ k, args[k]? = some q.2 ∧ argAt (some c) k = q.1 := by
  obtain ⟨k, hk⟩ := List.mem_iff_getElem?.1 h
  rw [List.getElem?_zip_eq_some] at hk
  have := hk.1
  rw [List.getElem?_map, Option.map_eq_some_iff] at this
  obtain ⟨m, h1, h2⟩ := this
  exact ⟨k, hk.2, by simp [argAt, h1, h2]⟩

theorem map_at {p : Pos} {elems : List Syn} {q : Pos × Syn} (h : q ∈ elems.map fun x => (p, x)) : ∃ k : Nat, elems[k]? = some q.2 ∧ p = q.1 := by
  obtain ⟨x, hx, rfl⟩ := List.mem_map.1 h
  obtain ⟨k, hk⟩ := List.mem_iff_getElem?.1 hx
  exact ⟨k, hk, rfl⟩

/-- The parts of an expression. -/
theorem Compat.args {p : Pos} {l : Option Name} {h : Name} {c : Class} {args : List Syn} {r : List (Pos × Syn)}
    (hU : Compat L U ((p, .expr l h args) :: r)) (hc : L.classes h = some c) :
    ∀ r ∈ usesAll L.classes (argAt (some c)) 0 args, ∀ i, U r.1 i → i = r.2 := by
  intro q hq
  exact hU _ List.mem_cons_self q (by rw [uses, hc]; exact List.mem_append_right _ hq)

/-- The elements of a set. -/
theorem Compat.elems {p : Pos} {K : Kind} {elems : List Syn} {r : List (Pos × Syn)}
    (hU : Compat L U ((p, .set none elems) :: r)) (hk : kindOf L.classes p = some K) :
    ∀ r ∈ usesAll L.classes (elemAt (some K)) 0 elems, ∀ i, U r.1 i → i = r.2 := by
  intro q hq
  exact hU _ List.mem_cons_self q (by rw [uses, hk]; exact List.mem_append_right _ hq)

/-- The same, with the class of the set. -/
theorem Compat.elemsC {p : Pos} {K : Kind} {elems : List Syn} {r : List (Pos × Syn)} (G : Good P L e)
    (hU : Compat L U ((p, .set none elems) :: r)) (hk : kindOf L.classes p = some K)
    (hu : ∀ m, p = .mem m → P.use m (usesAll L.classes (elemAt (some K)) 0 elems)) :
    ∀ r ∈ usesAll L.classes (elemAt (some K)) 0 elems, ∀ i, With U p r.1 i → i = r.2 := by
  rintro q hq i (hi | hi)
  · exact hU.elems hk q hq i hi
  · cases p with
    | mem m =>
      by_cases hm : m.cls = []
      · simp [own, hm] at hi
      · simp only [own, hm, if_false, List.mem_singleton, Prod.mk.injEq] at hi
        rw [hi.2]
        exact (G.use m _ (hu m rfl) q hq hi.1).symm
    | any => simp [own] at hi
    | ex c => simp [own] at hi
    | se c => simp [own] at hi

theorem cons_ok {w : Bool} {p : Pos} {x : Syn} {r : List (Pos × Syn)} {D D1 D2 : List Name} {t : Tree} {ts : List Tree}
    (h : ∃ f0, ∀ f ≥ f0, Step L e U f w p x D t D1) (hr : ∃ f0, Steps L e U f0 w r D1 ts D2) :
    ∃ f0, Steps L e U f0 w ((p, x) :: r) D (t :: ts) D2 := by
  obtain ⟨f0, h⟩ := h
  obtain ⟨f1, hr⟩ := hr
  exact ⟨max f0 f1, .cons (fun f hf => h f (by omega)) (hr.mono (by omega))⟩

theorem setU_any {g : Nat} {s s' : St} {wi : Nat} {w : Bool} {elems : List Syn}
    (h : setU (g + 1) e s wi w (.set none elems) = .yes s') (u : Use) : readK (g + 3) e s wi w u .any (.set none elems) = .yes s' := by
  have hs : ∀ k, readSimple k e s wi w (.set none elems) = .no s := fun k => by
    simp [readSimple, readNil, readVar, readRef, readWild, readLiteral]
  have no : ∀ k, readLit (g + 2) e s wi w false k (.set none elems) = .no s := fun k => readLit_no rfl (hs k) g
  have nx : readExpr (g + 2) e s wi w false none (.set none elems) = .no s := by
    simp [readExpr, readNilX, readVar, readRef, readWild, exprT_plain (x := .set none elems) rfl]
  have y : readSet (g + 2) e s wi w false none (.set none elems) = .yes s' := by
    simp only [readSet, readNilSet, readVar, readRef, readWild, or_no, h, or_yes]
  simp [readK, readAny, no, readClass, strip, nx, y]

theorem setU_set {g : Nat} {s s' : St} {wi : Nat} {w : Bool} {elems : List Syn}
    (h : setU g e s wi w (.set none elems) = .yes s') (u : Use) : readK (g + 1) e s wi w u (.set none) (.set none elems) = .yes s' := by
  simp only [readK, readSet, readNilSet, readVar, readRef, readWild, or_no, h, or_yes]

theorem setC_set {g : Nat} {s s' : St} {wi : Nat} {w : Bool} {elems : List Syn} {c : Class} {i : Iter} {u : Use}
    (h : setC g e s wi w c u (.set none elems) = .yes s') :
    readK (g + 1) e s wi w u (.set (some (c, i))) (.set none elems) = .yes s' := by
  simp only [readK, readSet, readNilSet, readVar, readRef, readWild, or_no, h, or_yes]

theorem zip_snd {α β : Type} {a : List α} {b : List β} (h : b.length ≤ a.length) : (a.zip b).map (·.2) = b :=
  List.map_snd_zip h

theorem map_pair {α β : Type} (p : α) (l : List β) : (l.map fun x => (p, x)).map (·.2) = l := by
  induction l with
  | nil => rfl
  | cons x r ih => simp only [List.map_cons, ih]

/-- Expressions. -/
theorem expr_ok {w : Bool} {p : Pos} {K : Kind} {l : Option Name} {h : Name} {c : Class} {args : List Syn} {kids : List Tree}
    {D D1 : List Name} {f0 : Nat} (G : Good P L e) (hk : kindOf L.classes p = some K) (hm : Leaves U p)
    (hc : IsClass L h c) (ho : exprOk h c K) (hl : LabelOk P L K c D l) (hlen : kids.length = arity c)
    (hT : ∀ F ≥ f0, ∀ (s : St) wi, Inv L s → LvlOk L e s.lvl → (∀ y ∈ D, y ∈ s.hlp) →
      (w = true → wi + arity c ≤ s.ext ∧ s.ext + sizes kids ≤ 4096) →
      ∃ s', exprTail F e s wi w c args = .yes s' ∧ DidAll L U w s s' wi kids D1 ∧ s'.lvl = s.lvl) :
    ∃ f0, ∀ f ≥ f0, Step L e U f w p (.expr l h args) D (.node l c.atom kids) D1 := by
  refine ⟨f0 + 5, StepK.step G.agrees hk hm (f0 := f0 + 4) ?_⟩
  intro K' hK' f hf s wi u _ hI hL hD hr
  have hl' : ∀ v, l = some v → L.inHlp = true ∧ v ∈ D := by
    rintro v rfl
    exact ⟨hl.1, hl.2.1⟩
  obtain ⟨s', h1, h2⟩ := exprBody_step G.agrees hlen hl' (hT (f - depth K' - 1) (by have := depth_le K'; omega)) hI hL hD hr
  refine ⟨s', ?_, h2⟩
  have hd := depth_le K'
  rw [show f = (f - depth K' - 1 + 1) + depth K' by omega]
  refine readK_expr G.agrees hI hD hc.1 hc.2.1 ?_ hl' ?_ ?_ h1 u
  · rcases hK' with rfl | ⟨-, rfl⟩
    · exact ho
    · trivial
  · cases l with
    | none => exact .inl rfl
    | some v =>
      rcases hK' with rfl | ⟨hw, -⟩
      · refine .inr (.inr ?_)
        rintro rfl
        exact G.lblAny c hl.2.2
      · exact .inr (.inl hw)
  · cases l with
    | none => exact .inl rfl
    | some v =>
      right
      rintro d rfl
      rcases hK' with rfl | ⟨-, h⟩
      · exact G.lblExpr d c hl.2.2
      · cases h

/-- Sets of a class. -/
theorem set_ok {w : Bool} {p : Pos} {c : Class} {i : Iter} {a : Word} {items : List (Pos × Syn)} {kids : List Tree}
    {D D1 : List Name} {f0 : Nat} (G : Good P L e) (hk : kindOf L.classes p = some (.set (some (c, i)))) (hm : Leaves U p)
    (h : Steps L e (With U p) f0 w items D kids D1) (hc : w = true → Steps L e (With U p) f0 false items D kids D1)
    (hp : ∀ k p, items[k]? = some p → posAt c i k = some p.1) (hn : 0 < items.length ∧ items.length < 256)
    (hi : (i = .cls ∧ items.length = arity c ∧ getDescriptor c.atom = 0xC2 ∧ a = c.atom) ∨
      ((i = .set ∨ (i = .expression ∧ getDescriptor c.atom ≠ 0xC2)) ∧ a = Atom.set (BitVec.ofNat 8 items.length))) :
    ∃ f0, ∀ f ≥ f0, Step L e U f w p (.set none (items.map (·.2))) D (.node none a kids) D1 := by
  refine ⟨f0 + items.length + 8, StepK.step G.agrees hk hm (f0 := f0 + items.length + 7) ?_⟩
  intro K' hK' f hf s wi u hu hI hL hD hr
  rcases hK' with rfl | ⟨rfl, rfl⟩
  · obtain ⟨s', h1, h2⟩ := setC_step h hc hp hn hi (F := f - 1) (by omega) (hu c i rfl) hI hL hD hr
    refine ⟨s', ?_, h2.mono fun _ _ => .inl⟩
    rw [show f = f - 1 + 1 by omega]
    exact setC_set h1
  · obtain ⟨s', h1, h2⟩ := setU_step (a := a) h hc (fun p _ => .inr ⟨rfl, rfl⟩) hn.1 (by simp) (by simp) (F := f - 3 + 1) (by omega) hI hL hD hr
    refine ⟨s', ?_, h2.mono fun _ _ => .inl⟩
    rw [show f = f - 3 + 3 by omega]
    exact setU_any h1 u

theorem core (G : Good P L e) (w : Bool)
    (hcount : w = true → ∀ {items D ts D'}, Means P L items D ts D' → ∀ U, Compat L U items → ∃ f0, Steps L e U f0 false items D ts D')
    {items : List (Pos × Syn)} {D D' : List Name} {ts : List Tree}
    (h : Means P L items D ts D') : ∀ U, Compat L U items → ∃ f0, Steps L e U f0 w items D ts D' := by
  have both : ∀ {items D ts D' U}, Means P L items D ts D' → Compat L U items →
      (∃ f0, Steps L e U f0 w items D ts D') →
      ∃ f0, Steps L e U f0 w items D ts D' ∧ (w = true → Steps L e U f0 false items D ts D') := by
    intro items D ts D' U hM hm hS
    obtain ⟨f0, hS⟩ := hS
    cases w with
    | false => exact ⟨f0, hS, by simp⟩
    | true =>
      obtain ⟨f1, hC⟩ := hcount rfl hM U hm
      exact ⟨max f0 f1, hS.mono (by omega), fun _ => hC.mono (by omega)⟩
  have arity_lt : ∀ c, arity c < 256 := fun c => (getAtomCount c.atom).isLt
  induction h with
  | nil => intro _ _; exact ⟨0, .nil⟩
  | @leaf p K x t r ts D D1 D2 hk h hr ih =>
    intro U hm
    refine cons_ok ⟨5, StepK.step G.agrees hk hm.leaves (f0 := 4) ?_⟩ (ih U hm.tail)
    intro K' hK' f hf s wi u _ hI hL hD hroom
    obtain ⟨s', h1, h2⟩ := leaf_step (K := K') (U := U) (wi := wi) (w := w) G.agrees G.plain hI hL hD
      (by rcases hK' with rfl | ⟨-, rfl⟩; exacts [h, h.any]) hroom
    obtain ⟨g, rfl⟩ : ∃ g, f = g + 4 := ⟨f - 4, by omega⟩
    exact ⟨s', h1 g u, h2⟩
  | @expr p K l h c args kids r ts D D1 D2 hk hc ho hl hn ha hr iha ihr =>
    intro U hm
    obtain ⟨f0, hS⟩ := iha U (.of (hm.args hc.1) fun _ => zip_at)
    have hlen : kids.length = arity c := by rw [hS.length]; simp [hc.2.2, hn]
    refine cons_ok (expr_ok (f0 := f0 + arity c + 2) G hk hm.leaves hc ho hl hlen ?_) (ihr U hm.tail)
    intro F hF s wi hI hL hD hroom
    obtain ⟨s', h1, h2, h3⟩ := exprTail_all (wi := wi) hS hc.2.2 hn (.inr hL) hI hD (by rw [hlen]; exact hroom) (F - arity c - 2) (by omega)
    exact ⟨s', by rwa [show F - arity c - 2 + arity c + 2 = F by omega] at h1, h2, h3⟩
  | @exprTail p K l h c args kids r ts D D1 D2 hk hc ho hl hn hp hmk ha hr iha ihr =>
    intro U hm
    have hat : ∀ q ∈ (c.members.map Pos.mem).zip args, ∃ k, (args ++ [Syn.tail])[k]? = some q.2 ∧ argAt (some c) k = q.1 := by
      intro q hq
      obtain ⟨k, h1, h2⟩ := zip_at hq
      exact ⟨k, by rw [List.getElem?_append_left (List.getElem?_eq_some_iff.1 h1).1]; exact h1, h2⟩
    obtain ⟨f0, hS⟩ := iha U (.of (hm.args hc.1) hat)
    have hkl : kids.length = args.length := by rw [hS.length]; simp [hc.2.2]; omega
    have := expr_ok (w := w) (D1 := D1) (args := args ++ [.tail]) (kids := withTail (arity c) kids) (f0 := f0 + arity c + 6) G hk
      hm.leaves hc ho hl (withTail_length (by omega)) (fun F hF s wi hI hL hD hroom =>
        exprTail_some (wi := wi) G.agrees hS hc.2.2 hn hmk (fun m hm' r hr => hm.args hc.1 r (usesAll_mem (k := args.length) (x := .tail) (by simp) (by simpa [uses, argAt, hm'] using hr))) hp hL hI hD (by rwa [withTail_sizes] at hroom) F hF)
    rw [withTail, hkl] at this
    exact cons_ok this (ihr U hm.tail)
  | @setU p K elems kids r ts D D1 D2 hk ho hn ha hr iha ihr =>
    intro U hm
    have hmm : Compat L U (elems.map fun x => (Pos.any, x)) := .of (pos := fun _ => .any) (by
      have := hm.elems hk
      rcases ho with rfl | rfl <;> exact this) fun _ => map_at
    obtain ⟨f0, hS, hC⟩ := both ha hmm (iha _ hmm)
    have hmap : (elems.map fun x => (Pos.any, x)).map (·.2) = elems := map_pair _ elems
    refine cons_ok ⟨f0 + elems.length + 8, StepK.step G.agrees hk hm.leaves (f0 := f0 + elems.length + 7) ?_⟩
      (ihr U hm.tail)
    intro K' hK' f hf s wi u _ hI hL hD hroom
    have hU : ∀ F, f0 + elems.length + 2 ≤ F → ∃ s', setU F e s wi w (.set none elems) = .yes s' ∧
        Did L U w s s' wi (.node none (Atom.set (BitVec.ofNat 8 elems.length)) kids) D1 := by
      intro F hF
      have := setU_step (a := Atom.set (BitVec.ofNat 8 elems.length)) hS hC (fun q hq => by
        obtain ⟨x, -, rfl⟩ := List.mem_map.1 hq; exact .inl rfl) (by simpa using hn.1) (fun _ => by simpa using hn.2) (by simp) (F := F) (by simpa using hF) hI hL hD hroom
      rwa [hmap] at this
    have hK : K' = .any ∨ K' = .set none := by
      rcases hK' with rfl | ⟨-, rfl⟩
      · exact ho
      · exact .inl rfl
    rcases hK with rfl | rfl
    · obtain ⟨s', h1, h2⟩ := hU (f - 3 + 1) (by omega)
      refine ⟨s', ?_, h2⟩
      rw [show f = f - 3 + 3 by omega]
      exact setU_any h1 u
    · obtain ⟨s', h1, h2⟩ := hU (f - 1) (by omega)
      refine ⟨s', ?_, h2⟩
      rw [show f = f - 1 + 1 by omega]
      exact setU_set h1 u
  | @setT p c elems kids r ts D D1 D2 hk hd hml hn hne hu ha hr iha ihr =>
    intro U hm
    have hmm : Compat L (With U p) ((c.members.map Pos.mem).zip elems) := .of (hm.elemsC G hk hu) fun _ => zip_at
    obtain ⟨f0, hS, hC⟩ := both ha hmm (iha _ hmm)
    have hmap : ((c.members.map Pos.mem).zip elems).map (·.2) = elems := zip_snd (by simp; omega)
    have hlen : ((c.members.map Pos.mem).zip elems).length = arity c := by simp; omega
    have := set_ok (w := w) (a := c.atom) G hk hm.leaves hS hC (fun k q hq => by
      rw [List.getElem?_zip_eq_some] at hq
      have := hq.1
      rw [List.getElem?_map] at this
      exact this) (by rw [hlen]; have := arity_lt c; omega) (.inl ⟨rfl, hlen, hd, rfl⟩)
    rw [hmap] at this
    exact cons_ok this (ihr U hm.tail)
  | @setE p c elems kids r ts D D1 D2 hk hd hn hu ha hr iha ihr =>
    intro U hm
    have hmm : Compat L (With U p) (elems.map fun x => (Pos.ex c, x)) := .of (hm.elemsC G hk hu) fun _ => map_at
    obtain ⟨f0, hS, hC⟩ := both ha hmm (iha _ hmm)
    have hmap : (elems.map fun x => (Pos.ex c, x)).map (·.2) = elems := map_pair _ elems
    have := set_ok (w := w) (a := Atom.set (BitVec.ofNat 8 elems.length)) G hk hm.leaves hS hC (fun k q hq => by
      rw [List.getElem?_map] at hq
      obtain ⟨x, -, rfl⟩ := Option.map_eq_some_iff.1 hq
      rfl) (by simpa using hn) (.inr ⟨.inr ⟨rfl, hd⟩, by simp⟩)
    rw [hmap] at this
    exact cons_ok this (ihr U hm.tail)
  | @setS p c elems kids r ts D D1 D2 hk hn hu ha hr iha ihr =>
    intro U hm
    have hmm : Compat L (With U p) (elems.map fun x => (Pos.se c, x)) := .of (hm.elemsC G hk hu) fun _ => map_at
    obtain ⟨f0, hS, hC⟩ := both ha hmm (iha _ hmm)
    have hmap : (elems.map fun x => (Pos.se c, x)).map (·.2) = elems := map_pair _ elems
    have := set_ok (w := w) (a := Atom.set (BitVec.ofNat 8 elems.length)) G hk hm.leaves hS hC (fun k q hq => by
      rw [List.getElem?_map] at hq
      obtain ⟨x, -, rfl⟩ := Option.map_eq_some_iff.1 hq
      rfl) (by simpa using hn) (.inr ⟨.inl rfl, by simp⟩)
    rw [hmap] at this
    exact cons_ok this (ihr U hm.tail)

/-- What elements mean is what is read, and written if it is to be. -/
theorem means_steps (G : Good P L e) (w : Bool) {items : List (Pos × Syn)} {D D' : List Name} {ts : List Tree}
    (h : Means P L items D ts D') : ∃ f0, Steps L e (fun _ _ => False) f0 w items D ts D' := by
  refine core G w (fun _ => ?_) h _ fun _ _ _ _ _ h => h.elim
  intro items D ts D' h
  exact core G false (by simp) h

end Verif.Compile
