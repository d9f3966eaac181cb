import Verif.Decomp.Leaves

/-! # Elements with parts are written as they were meant -/
namespace Verif.Decomp
open Verif.Macro Verif.Classes Verif.Atom Verif.Compile

/-- `n` elements from cell `i` on are written as `zs`. -/
def Writes (T : Meta) (code : List Word) (R : List Nat) (fl : Fl) (i n : Nat) (inSet tailed : Bool) (wvi : Nat) (zs : List Syn) : Prop :=
  ∃ m fl', fl'.post = fl.post ∧ fl'.inHlp = fl.inHlp ∧
    ∀ f ≥ m, writeElems f T code R fl i n inSet tailed wvi = some (zs, fl')

/-- In the same place, with the same uses of classes. -/
def Like (L : Lang) (a b : Pos × Syn) : Prop := a.1 = b.1 ∧ ∀ q, uses L.classes q b.2 = uses L.classes q a.2

variable {T : Meta} {code : List Word} {H : List Name} {R : List Nat} {ρ : Name → Name} {L L' : Lang} {P : Limits}

theorem Writes.nil {fl : Fl} {i : Nat} {inSet tailed : Bool} {wvi : Nat} : Writes T code R fl i 0 inSet tailed wvi [] :=
  ⟨1, fl, rfl, rfl, fun f hf => by obtain ⟨f, rfl⟩ : ∃ g, f = g + 1 := ⟨f - 1, by omega⟩; rfl⟩

theorem Writes.cons {fl fl1 : Fl} {i n : Nat} {inSet tailed tl : Bool} {wvi m : Nat} {xs ys : List Syn}
    (h : ∀ f ≥ m, writeAny f T code R fl i (inSet && n == 0) tailed wvi = some (xs, fl1, tl)) (h1 : fl1.post = fl.post)
    (h2 : fl1.inHlp = fl.inHlp) (hr : Writes T code R fl1 (i + 1) n inSet tl wvi ys) :
    Writes T code R fl i (n + 1) inSet tailed wvi (xs ++ ys) := by
  obtain ⟨m', fl2, h3, h4, h5⟩ := hr
  refine ⟨m + m' + 1, fl2, h3.trans h1, h4.trans h2, fun f hf => ?_⟩
  obtain ⟨f, rfl⟩ : ∃ g, f = g + 1 := ⟨f - 1, by omega⟩
  simp only [writeElems, h f (by omega), h5 f (by omega), Option.map_some]

/-- After `::`. -/
theorem writes_after (wvi : Nat) : ∀ (n i : Nat) (fl : Fl), (∀ k < n, code[i + k]? = some (wildcard 0)) →
    Writes T code R fl i n false true wvi []
  | 0, _, _, _ => Writes.nil
  | n + 1, i, fl, h => by
    have hr := writes_after wvi n (i + 1) fl fun k hk => by rw [show i + 1 + k = i + (k + 1) by omega]; exact h _ (by omega)
    refine Writes.cons (xs := []) (m := 1) (fun f hf => ?_) rfl rfl hr
    obtain ⟨f, rfl⟩ : ∃ g, f = g + 1 := ⟨f - 1, by omega⟩
    exact any_after f _ wvi (by simpa using h 0 (by omega))

/-- `::` and what it stands for. -/
theorem writes_tail {wvi n i : Nat} (fl : Fl) (h : code[i]? = some tailWildcard) (hw : ∀ k < n, code[i + 1 + k]? = some (wildcard 0)) :
    Writes T code R fl i (n + 1) false false wvi [.tail] := by
  refine Writes.cons (xs := [.tail]) (m := 1) (fun f hf => ?_) rfl rfl (writes_after wvi n (i + 1) fl hw)
  obtain ⟨f, rfl⟩ : ∃ g, f = g + 1 := ⟨f - 1, by omega⟩
  exact any_tail f _ wvi h

/-- A pointer to a structure, after a label or not. -/
theorem any_node (hN : Numbered H ρ) {i : Nat} {l : Option Name} {a : Word} {kids : List Tree} {fl : Fl}
    (hr : Reads code H R i (.node l a kids)) (hl : l.isSome → fl.post = false) :
    ∃ j, i < j ∧ code[j]? = some a ∧ (getAtomCount a).toNat = kids.length ∧
      (∀ (k : Nat) t, kids[k]? = some t → Reads code H R (j + 1 + k) t) ∧
      ∀ f close wvi, writeAny (f + 1) T code R fl i close false wvi =
        (writePtr f T code R fl i (l.map ρ) j wvi).map fun p => ([p.1], p.2, false) := by
  cases hr with
  | node hj hij h ha hn hk => exact ⟨_, hij, ha, hn, hk, fun f close wvi => any_iptr f close wvi hj h⟩
  | assign hj hij hv hx h ha hn hk =>
    refine ⟨_, hij, ha, hn, hk, fun f close wvi => ?_⟩
    rw [any_aptr f close wvi hj hv (hl rfl) h, Option.map_some, hN _ _ hx]

/-- The heads of expressions. -/
theorem head_desc {a : Word} {h : Name} (hh : headName T a = some h) :
    ∃ d, getDescriptor a = d ∧ (d = 0xC3 ∨ d = 0xC4 ∨ d = 0xC5 ∨ d = 0xC8 ∨ d = 0xC9 ∨ d = 0xCA ∨ d = 0xCB ∨ d = 0xCC ∨ d = 0xCD ∨
      d = 0xCE) := by
  refine ⟨_, rfl, ?_⟩
  by_contra hc
  simp only [not_or] at hc
  simp only [headName, hc] at hh
  simp at hh

theorem ptr_expr (f : Nat) {fl : Fl} {i j wvi : Nat} {l : Option Name} {a : Word} {h : Name} (hij : i < j) (ha : code[j]? = some a)
    (hh : headName T a = some h) :
    writePtr (f + 2) T code R fl i l j wvi = (writeExpr (f + 1) T code R fl j).map fun p => (.expr l p.1 p.2.1, p.2.2) := by
  obtain ⟨d, hd, h1⟩ := head_desc hh
  have h0 : getDescriptor (cell code j) ≠ 0x84 := by
    rw [cell_eq ha, hd]; rintro rfl; exact absurd h1 (by decide)
  rw [writePtr, follow_here h0]
  simp only [cell_eq ha, hd]
  rw [if_neg (by omega), if_pos h1]

/-- Expressions are written with their elements. -/
theorem expr_writes {fl : Fl} {j : Nat} {a : Word} {h : Name} (ha : code[j]? = some a) (hh : HeadOk T h a) :
    ∃ (fl1 : Fl) (wvi' : Nat), fl1.post = fl.post ∧ fl1.inHlp = fl.inHlp ∧ (wvi' = 0 ∨ isCmd T a = true) ∧
      ∀ xs, Writes T code R fl1 (j + 1) (getAtomCount a).toNat false false wvi' xs →
        ∃ (m : Nat) (fl2 : Fl), fl2.post = fl.post ∧ fl2.inHlp = fl.inHlp ∧ ∀ f ≥ m, writeExpr f T code R fl j = some (h, xs, fl2) := by
  obtain ⟨h1, r, h2, h3, h4⟩ := hh
  cases r with
  | hlp => exact absurd rfl h3
  | expr =>
    refine ⟨fl, 0, rfl, rfl, .inl rfl, ?_⟩
    rintro xs ⟨m, fl2, e1, e2, hw⟩
    refine ⟨m + 1, fl2, e1, e2, fun f hf => ?_⟩
    obtain ⟨f, rfl⟩ : ∃ g, f = g + 1 := ⟨f - 1, by omega⟩
    simp only [writeExpr, cell_eq ha, h2, h1, hw f (by omega), Option.map_some]
  | marker =>
    refine ⟨{ fl with hor := fl.hor || !fl.inHlp }, 0, rfl, rfl, .inl rfl, ?_⟩
    rintro xs ⟨m, fl2, e1, e2, hw⟩
    refine ⟨m + 1, { fl2 with hor := fl2.hor && fl2.inHlp }, e1, e2, fun f hf => ?_⟩
    obtain ⟨f, rfl⟩ : ∃ g, f = g + 1 := ⟨f - 1, by omega⟩
    simp only [writeExpr, cell_eq ha, h2, h1, hw f (by omega), Option.map_some]
  | fact =>
    refine ⟨{ fl with hor := fl.hor || fl.inHlp }, 0, rfl, rfl, .inl rfl, ?_⟩
    rintro xs ⟨m, fl2, e1, e2, hw⟩
    refine ⟨m + 1, { fl2 with hor := false }, e1, e2, fun f hf => ?_⟩
    obtain ⟨f, rfl⟩ : ∃ g, f = g + 1 := ⟨f - 1, by omega⟩
    simp only [writeExpr, cell_eq ha, h2, h1, hw f (by omega), Option.map_some]
  | icmd =>
    obtain ⟨o, ho⟩ := Option.isSome_iff_exists.1 (h4 rfl)
    refine ⟨fl, viewIndex code o j, rfl, rfl, .inr (by simp [isCmd, h2]), ?_⟩
    rintro xs ⟨m, fl2, e1, e2, hw⟩
    refine ⟨m + 1, fl2, e1, e2, fun f hf => ?_⟩
    obtain ⟨f, rfl⟩ : ∃ g, f = g + 1 := ⟨f - 1, by omega⟩
    simp only [writeExpr, cell_eq ha, h2, h1, ho, hw f (by omega), Option.map_some]

/-- Sets are written with their elements. -/
theorem set_writes {fl : Fl} {j wvi : Nat} {a : Word} {cmd : Bool} (ha : code[j]? = some a) (h0 : (getAtomCount a).toNat ≠ 0)
    (hv : cmd = true → (getAtomCount a).toNat ≤ 13) (hw : wvi = 0 ∨ cmd = true) :
    ∃ (b : Bool) (wvi' : Nat), (wvi' = 0 ∨ cmd = true) ∧
      ∀ xs, Writes T code R fl (j + 1) (getAtomCount a).toNat b false wvi' xs →
        ∃ (m : Nat) (fl2 : Fl), fl2.post = fl.post ∧ fl2.inHlp = fl.inHlp ∧ ∀ f ≥ m, writeSet f T code R fl j wvi = some (some xs, fl2) := by
  by_cases h1 : (getAtomCount a).toNat = 1
  · refine ⟨true, 0, .inl rfl, ?_⟩
    rintro xs ⟨m, fl2, e1, e2, hw⟩
    refine ⟨m + 1, fl2, e1, e2, fun f hf => ?_⟩
    obtain ⟨f, rfl⟩ : ∃ g, f = g + 1 := ⟨f - 1, by omega⟩
    simp only [writeSet, cell_eq ha]
    rw [if_neg h0, if_pos h1, hw f (by omega), Option.map_some]
  · by_cases h2 : wvi > 0 ∧ wvi = j
    · refine ⟨true, 0, .inl rfl, ?_⟩
      rintro xs ⟨m, fl2, e1, e2, hw'⟩
      refine ⟨m + 1, fl2, e1, e2, fun f hf => ?_⟩
      obtain ⟨f, rfl⟩ : ∃ g, f = g + 1 := ⟨f - 1, by omega⟩
      have := hv (hw.resolve_left (by omega))
      simp only [writeSet, cell_eq ha]
      rw [if_neg h0, if_neg h1, if_pos h2, if_neg (by unfold viewMax; omega), hw' f (by omega), Option.map_some]
    · refine ⟨fl.hor, wvi, hw, ?_⟩
      rintro xs ⟨m, fl2, e1, e2, hw'⟩
      refine ⟨m + 1, fl2, e1, e2, fun f hf => ?_⟩
      obtain ⟨f, rfl⟩ : ∃ g, f = g + 1 := ⟨f - 1, by omega⟩
      have h3 := hw' f (by omega)
      simp only [writeSet, cell_eq ha]
      rw [if_neg h0, if_neg h1, if_neg h2]
      cases hh : fl.hor <;> rw [hh] at h3 <;> simp [h3]

theorem ptr_set (f : Nat) {fl fl2 : Fl} {i j wvi : Nat} {a : Word} {xs : List Syn} {d : BitVec 8} (hij : i < j)
    (ha : code[j]? = some a) (hd : getDescriptor a = d) (h1 : d = 0xC1 ∨ d = 0xC2) (h0 : (getAtomCount a).toNat ≠ 0)
    (hs : writeSet (f + 1) T code R fl j wvi = some (some xs, fl2)) :
    writePtr (f + 2) T code R fl i none j wvi = some (.set none xs, fl2) := by
  have h2 : getDescriptor (cell code j) ≠ 0x84 := by
    rw [cell_eq ha, hd]; rintro rfl; exact absurd h1 (by decide)
  have h3 : readsAsNil a = false := by
    simp only [readsAsNil, Bool.or_eq_false_iff, beq_eq_false_iff_ne, ne_eq]
    refine ⟨⟨⟨⟨⟨⟨⟨?_, ?_⟩, ?_⟩, ?_⟩, ?_⟩, ?_⟩, ?_⟩, ?_⟩ <;> intro he <;> rw [he] at h0 hd <;>
      first | exact absurd h0 (by decide) | (rw [← hd] at h1; exact absurd h1 (by decide))
  rw [writePtr, follow_here h2]
  simp only [cell_eq ha, hd, h3, hs]
  rw [if_neg (by omega)]
  rcases h1 with rfl | rfl <;> simp

theorem Means.len {l : List (Pos × Syn)} {D D' : List Name} {ts : List Tree} (h : Means P L l D ts D') : ts.length = l.length := by
  induction h with
  | nil => rfl
  | leaf _ _ _ ih => simp [ih]
  | expr _ _ _ _ _ _ _ _ ih => simp [ih]
  | exprTail _ _ _ _ _ _ _ _ _ _ ih => simp [ih]
  | setU _ _ _ _ _ _ ih => simp [ih]
  | setT _ _ _ _ _ _ _ _ _ ih => simp [ih]
  | setE _ _ _ _ _ _ _ ih => simp [ih]
  | setS _ _ _ _ _ _ ih => simp [ih]

theorem usesAll_like {cl : Name → Option Class} {a b : List Syn} (h : List.Forall₂ (fun x y => ∀ q, uses cl q y = uses cl q x) a b) :
    ∀ pos n, usesAll cl pos n b = usesAll cl pos n a := by
  induction h with
  | nil => intro _ _; rfl
  | cons h _ ih => intro pos n; simp only [usesAll, h, ih]

theorem like_snd {a b : List (Pos × Syn)} (h : List.Forall₂ (Like L) a b) :
    List.Forall₂ (fun x y => ∀ q, uses L.classes q y = uses L.classes q x) (a.map (·.2)) (b.map (·.2)) := by
  induction h with
  | nil => exact .nil
  | cons h _ ih => exact .cons h.2 ih

theorem like_zip : ∀ {A : List Pos} {B : List Syn} {l' : List (Pos × Syn)}, List.Forall₂ (Like L) (A.zip B) l' → B.length ≤ A.length →
    l' = A.zip (l'.map (·.2))
  | [], B, l', h, _ => by simp at h; subst h; simp
  | a :: A, [], l', h, _ => by simp at h; subst h; simp
  | a :: A, b :: B, l', h, hl => by
    rw [List.zip_cons_cons] at h
    cases h with
    | cons h hr =>
      have := like_zip hr (by simpa using hl)
      rename_i c r
      obtain ⟨c1, c2⟩ := c
      have h1 : a = c1 := h.1
      subst h1
      rw [List.map_cons, List.zip_cons_cons, ← this]

theorem like_map {p : Pos} : ∀ {B : List Syn} {l' : List (Pos × Syn)}, List.Forall₂ (Like L) (B.map fun x => (p, x)) l' →
    l' = (l'.map (·.2)).map fun x => (p, x)
  | [], l', h => by simp at h; subst h; rfl
  | b :: B, l', h => by
    rw [List.map_cons] at h
    cases h with
    | cons h hr =>
      have := like_map hr
      rename_i c r
      obtain ⟨c1, c2⟩ := c
      have h1 : p = c1 := h.1
      subst h1
      rw [List.map_cons, List.map_cons, ← this]

theorem zip_snd {A : List Pos} {B : List Syn} (h : B.length ≤ A.length) : (A.zip B).map (·.2) = B := by
  rw [← List.unzip_snd, List.unzip_zip_right h]

theorem map_snd {p : Pos} {B : List Syn} : (B.map fun x => (p, x)).map (·.2) = B := by simp [Function.comp_def]

theorem set_desc (n : BitVec 8) : getDescriptor (Atom.set n) = 0xC1 := by
  obtain ⟨_, h⟩ := taggedN 0xC1 (Atom.set n) _ (set_toNat n) (by have := n.isLt; omega) (by omega)
  exact desc_of h

/-- What is written for elements, and what it means. -/
def Shown (T : Meta) (code : List Word) (R : List Nat) (ρ : Name → Name) (P : Limits) (L L' : Lang) (l : List (Pos × Syn)) (ts : List Tree)
    (D2 : List Name) (fl : Fl) (i m : Nat) (close : Bool) (wvi : Nat) (zs : List Syn) (E : List Name) : Prop :=
  ∃ l' E2, Writes T code R fl i (ts.length + m) close false wvi (l'.map (·.2) ++ zs) ∧ Means P L' l' E (rens ρ ts) E2 ∧
    (Known L D2 ∧ Under ρ D2 E2) ∧ List.Forall₂ (Like L) l l'

/-- One more element. -/
theorem Shown.cons {p : Pos} {x x' : Syn} {r : List (Pos × Syn)} {t : Tree} {ts : List Tree} {D2 E E1 : List Name} {fl fl1 : Fl}
    {i m wvi m0 : Nat} {close : Bool} {zs : List Syn}
    (hw : ∀ f ≥ m0, writeAny f T code R fl i (close && (ts.length + m) == 0) false wvi = some ([x'], fl1, false))
    (h1 : fl1.post = fl.post) (h2 : fl1.inHlp = fl.inHlp) (hu : ∀ q, uses L.classes q x' = uses L.classes q x)
    (hm : ∀ l' E2, Means P L' l' E1 (rens ρ ts) E2 → Means P L' ((p, x') :: l') E (ren ρ t :: rens ρ ts) E2)
    (hr : Shown T code R ρ P L L' r ts D2 fl1 (i + 1) m close wvi zs E1) :
    Shown T code R ρ P L L' ((p, x) :: r) (t :: ts) D2 fl i m close wvi zs E := by
  obtain ⟨l', E2, h3, h4, h5, h6⟩ := hr
  refine ⟨(p, x') :: l', E2, ?_, by rw [rens]; exact hm _ _ h4, h5, .cons ⟨rfl, hu⟩ h6⟩
  rw [List.length_cons, show ts.length + 1 + m = ts.length + m + 1 by omega]
  simpa using Writes.cons hw h1 h2 h3

/-- Elements are written as they were meant. -/
theorem shown (hT : T.ref = 0) (C : Corr T ρ L L') (hN : Numbered H ρ) (hP : P.close false) {l : List (Pos × Syn)} {D D2 : List Name}
    {ts : List Tree} (h : Means P L l D ts D2) : ∀ {i : Nat} {fl : Fl} {inSet close cmd : Bool} {wvi m : Nat} {zs : List Syn} {E : List Name},
    (∀ (k : Nat) t, ts[k]? = some t → Reads code H R (i + k) t) → plains T (ctx L) fl.post cmd inSet (l.map (·.2)) →
    Known L D → Under ρ D E → (wvi = 0 ∨ cmd = true) → (close = true → inSet = true ∧ m = 0) →
    (∀ fl' : Fl, fl'.post = fl.post → fl'.inHlp = fl.inHlp → Writes T code R fl' (i + ts.length) m close false wvi zs) →
    Shown T code R ρ P L L' l ts D2 fl i m close wvi zs E := by
  have kind : ∀ {p K}, kindOf L.classes p = some K → kindOf L'.classes p = some K := by
    intro p K h; rw [C.classes]; exact h
  have isc : ∀ {h c}, IsClass L h c → IsClass L' h c := by
    rintro h c ⟨a1, a2, a3⟩; refine ⟨?_, ?_, a3⟩
    · rw [C.classes]; exact a1
    · rw [C.sys]; exact a2
  have lab : ∀ {K c D E l}, LabelOk P L K c D l → Under ρ D E → LabelOk P L' K c E (l.map ρ) := by
    intro K c D E l h hE
    cases l with
    | none => trivial
    | some v => exact ⟨by rw [C.inHlp]; exact h.1, hE _ h.2.1, h.2.2⟩
  have nxt : ∀ {x : Syn} {t : Tree} {r : List (Pos × Syn)} {ts : List Tree} {p : Pos} {i : Nat} {fl fl1 : Fl} {inSet close cmd : Bool}
      {wvi m : Nat} {zs : List Syn} {D1 D2 E1 : List Name},
      (∀ {i : Nat} {fl : Fl} {inSet close cmd : Bool} {wvi m : Nat} {zs : List Syn} {E : List Name},
        (∀ (k : Nat) t, ts[k]? = some t → Reads code H R (i + k) t) → plains T (ctx L) fl.post cmd inSet (r.map (·.2)) →
        Known L D1 → Under ρ D1 E → (wvi = 0 ∨ cmd = true) → (close = true → inSet = true ∧ m = 0) →
        (∀ fl' : Fl, fl'.post = fl.post → fl'.inHlp = fl.inHlp → Writes T code R fl' (i + ts.length) m close false wvi zs) →
        Shown T code R ρ P L L' r ts D2 fl i m close wvi zs E) →
      (∀ (k : Nat) t', (t :: ts)[k]? = some t' → Reads code H R (i + k) t') →
      plains T (ctx L) fl.post cmd inSet (((p, x) :: r).map (·.2)) →
      Known L D1 ∧ Under ρ D1 E1 → (wvi = 0 ∨ cmd = true) → (close = true → inSet = true ∧ m = 0) →
      (∀ fl' : Fl, fl'.post = fl.post → fl'.inHlp = fl.inHlp → Writes T code R fl' (i + (t :: ts).length) m close false wvi zs) →
      fl1.post = fl.post → fl1.inHlp = fl.inHlp →
      Shown T code R ρ P L L' r ts D2 fl1 (i + 1) m close wvi zs E1 := by
    intro x t r ts p i fl fl1 inSet close cmd wvi m zs D1 D2 E1 ih hr hp hD hw hc hk e1 e2
    rw [List.map_cons, plains] at hp
    refine ih (fun k t h => ?_) (by rw [e1]; exact hp.2) hD.1 hD.2 hw hc fun fl' h1 h2 => ?_
    · rw [show i + 1 + k = i + (k + 1) by omega]; exact hr _ _ (by simpa using h)
    · rw [show i + 1 + ts.length = i + (t :: ts).length by simp; omega]; exact hk fl' (h1.trans e1) (h2.trans e2)
  have closes : ∀ {x : Syn} {r : List (Pos × Syn)} {ts : List Tree} {inSet close : Bool} {m : Nat}, ts.length = r.length →
      (close = true → inSet = true ∧ m = 0) →
      (close && (ts.length + m) == 0) = true → (inSet && (r.map (·.2)).isEmpty) = true := by
    intro x r ts inSet close m hl hc h
    simp only [Bool.and_eq_true, beq_iff_eq] at h
    have : r = [] := List.length_eq_zero_iff.1 (by omega)
    simp [this, (hc h.1).1]
  have expr : ∀ {l : Option Name} {h : Name} {c : Class} {args zs : List Syn} {D D1 E : List Name} {kids kz : List Tree}
      {i wvi : Nat} {fl : Fl} {close cmd last : Bool},
      (∀ {i : Nat} {fl : Fl} {inSet close cmd : Bool} {wvi m : Nat} {zs : List Syn} {E : List Name},
        (∀ (k : Nat) t, kids[k]? = some t → Reads code H R (i + k) t) →
        plains T (ctx L) fl.post cmd inSet (((c.members.map Pos.mem).zip args).map (·.2)) →
        Known L D → Under ρ D E → (wvi = 0 ∨ cmd = true) → (close = true → inSet = true ∧ m = 0) →
        (∀ fl' : Fl, fl'.post = fl.post → fl'.inHlp = fl.inHlp → Writes T code R fl' (i + kids.length) m close false wvi zs) →
        Shown T code R ρ P L L' ((c.members.map Pos.mem).zip args) kids D1 fl i m close wvi zs E) →
      Reads code H R i (.node l c.atom (kids ++ kz)) → plain T (ctx L) fl.post cmd last (.expr l h (args ++ zs)) →
      L.classes h = some c → args.length ≤ c.members.length → Known L D → Under ρ D E →
      (∀ j (fl' : Fl) wvi, (∀ (k : Nat) t, kz[k]? = some t → Reads code H R (j + k) t) → Writes T code R fl' j kz.length false false wvi zs) →
      ∃ (l' : List (Pos × Syn)) (E1 : List Name) (m0 : Nat) (fl1 : Fl),
        (∀ f ≥ m0, writeAny f T code R fl i close false wvi = some ([.expr (l.map ρ) h (l'.map (·.2) ++ zs)], fl1, false)) ∧
        (fl1.post = fl.post ∧ fl1.inHlp = fl.inHlp) ∧
        Means P L' l' E (rens ρ kids) E1 ∧ (Known L D1 ∧ Under ρ D1 E1) ∧ List.Forall₂ (Like L) ((c.members.map Pos.mem).zip args) l' := by
    intro l h c args zs D D1 E kids kz i wvi fl close cmd last iha hr hp hc hn hD hE hz
    rw [plain] at hp
    obtain ⟨p1, p2, p3⟩ := hp
    obtain ⟨j, hij, haj, hcnt, hkid, hany⟩ := any_node (T := T) hN hr p1
    have hh := p2 c hc
    obtain ⟨fl1, wvi', e1, e2, e3, hx⟩ := expr_writes (R := R) (fl := fl) haj hh
    have hcm : ((ctx L).classes h).any (fun c => isCmd T c.atom) = isCmd T c.atom := by simp [ctx, hc]
    rw [hcm] at p3
    have hsplit : ∀ {xs ys : List Syn} {post cmd : Bool}, plains T (ctx L) post cmd false (xs ++ ys) → plains T (ctx L) post cmd false xs := by
      intro xs ys post cmd
      induction xs with
      | nil => intro _; trivial
      | cons x xs ih => rw [List.cons_append, plains, plains]; rintro ⟨q1, q2⟩; exact ⟨by simpa using q1, ih q2⟩
    obtain ⟨l', E1, w1, w2, w3, w4⟩ := iha (i := j + 1) (fl := fl1) (inSet := false) (close := false) (wvi := wvi') (m := kz.length) (zs := zs)
      (E := E) (fun k t hk => hkid k t (by rw [List.getElem?_append_left (List.getElem?_eq_some_iff.1 hk).1]; exact hk))
      (by rw [zip_snd (by simpa using hn), e1]; exact hsplit p3) hD hE e3 (by simp)
      (fun fl' _ _ => hz _ _ _ fun k t hk => by
        rw [show j + 1 + kids.length + k = j + 1 + (kids.length + k) by omega]
        exact hkid _ _ (by rw [List.getElem?_append_right (by omega)]; simpa using hk))
    obtain ⟨m0, fl2, f1, f2, f3⟩ := hx _ (by rw [hcnt, List.length_append]; exact w1)
    refine ⟨l', E1, m0 + 3, fl2, fun f hf => ?_, ⟨f1, f2⟩, w2, w3, w4⟩
    obtain ⟨f, rfl⟩ : ∃ g, f = g + 3 := ⟨f - 3, by omega⟩
    rw [hany (f + 2), ptr_expr f hij haj hh.1, f3 (f + 1) (by omega)]; rfl
  have sets : ∀ {a : Word} {li : List (Pos × Syn)} {D D1 E : List Name} {kids : List Tree}
      {i wvi : Nat} {fl : Fl} {close cmd last : Bool},
      (∀ {i : Nat} {fl : Fl} {inSet close cmd : Bool} {wvi m : Nat} {zs : List Syn} {E : List Name},
        (∀ (k : Nat) t, kids[k]? = some t → Reads code H R (i + k) t) →
        plains T (ctx L) fl.post cmd inSet (li.map (·.2)) →
        Known L D → Under ρ D E → (wvi = 0 ∨ cmd = true) → (close = true → inSet = true ∧ m = 0) →
        (∀ fl' : Fl, fl'.post = fl.post → fl'.inHlp = fl.inHlp → Writes T code R fl' (i + kids.length) m close false wvi zs) →
        Shown T code R ρ P L L' li kids D1 fl i m close wvi zs E) →
      Reads code H R i (.node none a kids) → plain T (ctx L) fl.post cmd last (.set none (li.map (·.2))) →
      kids.length = li.length → 0 < li.length → (getDescriptor a = 0xC1 ∨ getDescriptor a = 0xC2) →
      Known L D → Under ρ D E → (wvi = 0 ∨ cmd = true) →
      ∃ (l' : List (Pos × Syn)) (E1 : List Name) (m0 : Nat) (fl1 : Fl),
        (∀ f ≥ m0, writeAny f T code R fl i close false wvi = some ([.set none (l'.map (·.2))], fl1, false)) ∧
        (fl1.post = fl.post ∧ fl1.inHlp = fl.inHlp) ∧
        Means P L' l' E (rens ρ kids) E1 ∧ (Known L D1 ∧ Under ρ D1 E1) ∧ List.Forall₂ (Like L) li l' := by
    intro a li D D1 E kids i wvi fl close cmd last iha hr hp hlen hn hd hD hE hw
    rw [plain] at hp
    obtain ⟨p1, p2⟩ := hp
    obtain ⟨j, hij, haj, hcnt, hkid, hany⟩ := any_node (T := T) (fl := fl) hN hr (by simp)
    have h0 : (getAtomCount a).toNat ≠ 0 := by omega
    obtain ⟨b, wvi', e3, hx⟩ := set_writes (T := T) (R := R) (fl := fl) (cmd := cmd) haj h0
      (fun h => by have := p1 h; rw [List.length_map] at this; omega) hw
    obtain ⟨l', E1, w1, w2, w3, w4⟩ := iha (i := j + 1) (fl := fl) (inSet := true) (close := b) (wvi := wvi') (m := 0) (zs := [])
      (E := E) hkid p2 hD hE e3 (by simp) (fun fl' _ _ => Writes.nil)
    obtain ⟨m0, fl2, f1, f2, f3⟩ := hx (l'.map (·.2)) (by rw [hcnt]; simpa using w1)
    refine ⟨l', E1, m0 + 3, fl2, fun f hf => ?_, ⟨f1, f2⟩, w2, w3, w4⟩
    obtain ⟨f, rfl⟩ : ∃ g, f = g + 3 := ⟨f - 3, by omega⟩
    rw [hany (f + 2)]
    simp only [Option.map_none]
    rw [ptr_set f hij haj rfl hd h0 (f3 (f + 1) (by omega))]; rfl
  induction h with
  | nil =>
    intro i fl inSet close cmd wvi m zs E _ _ hD hE _ _ hk
    refine ⟨[], E, ?_, .nil, ⟨hD, hE⟩, .nil⟩
    simpa using hk fl rfl rfl
  | leaf hk h hr ih =>
    intro i fl inSet close cmd wvi m zs E hrd hp hD hE hw hc hz
    have hp' := hp
    rw [List.map_cons, plains] at hp'
    obtain ⟨x', E1, h1, h2, h3, h4⟩ := leaf_shown (wvi := wvi) hT C hN hP h (hrd 0 _ rfl) hD hE hp'.1
      (closes (x := .empty) (Means.len hr) hc)
    refine Shown.cons (m0 := 3) (fl1 := fl) (fun f hf => ?_) rfl rfl h4 (fun l' E2 h => .leaf (kind hk) h2 h)
      (nxt ih hrd hp h3 hw hc hz rfl rfl)
    obtain ⟨f, rfl⟩ : ∃ g, f = g + 3 := ⟨f - 3, by omega⟩
    exact h1 f
  | expr hk hcl ho hl hn ha hr iha ih =>
    rename_i p K l h c args kids r ts D D1 D2
    intro i fl inSet close cmd wvi m zs E hrd hp hD hE hw hc hz
    have hp' := hp
    rw [List.map_cons, plains] at hp'
    have hle : args.length ≤ c.members.length := by rw [hcl.2.2]; omega
    obtain ⟨l', E1, m0, fl1, w1, w2, w3, w4, w5⟩ := expr (zs := []) (kz := []) (wvi := wvi)
      (close := close && (ts.length + m) == 0) iha (by rw [List.append_nil]; exact hrd 0 _ rfl)
      (by rw [List.append_nil]; exact hp'.1) hcl.1 hle hD hE (fun _ _ _ _ => Writes.nil)
    have hz' := like_zip w5 (by simpa using hle)
    have hs := like_snd w5
    rw [zip_snd (by simpa using hle)] at hs
    refine Shown.cons w1 w2.1 w2.2 (fun q => ?_) (fun lr E2 hm => ?_) (nxt ih hrd hp w4 hw hc hz w2.1 w2.2)
    · rw [List.append_nil, uses, uses, usesAll_like hs]
    · rw [ren, List.append_nil]
      exact .expr (kind hk) (isc hcl) ho (lab hl hE) (by rw [← hs.length_eq]; exact hn) (by rw [← hz']; exact w3) hm
  | exprTail hk hcl ho hl hn hpt hmem ha hr iha ih =>
    rename_i p K l h c args kids r ts D D1 D2
    intro i fl inSet close cmd wvi m zs E hrd hp hD hE hw hc hz
    have hp' := hp
    rw [List.map_cons, plains] at hp'
    have hle : args.length ≤ c.members.length := by rw [hcl.2.2]; omega
    obtain ⟨l', E1, m0, fl1, w1, w2, w3, w4, w5⟩ := expr (zs := [.tail])
      (kz := .word tailWildcard :: List.replicate (arity c - args.length - 1) (.word (wildcard 0))) (wvi := wvi)
      (close := close && (ts.length + m) == 0) iha (hrd 0 _ rfl) hp'.1 hcl.1 hle hD hE (fun j fl' wvi hz => by
        rw [List.length_cons, List.length_replicate]
        refine writes_tail fl' ?_ fun k hk => ?_
        · cases hz 0 _ rfl with
          | word h => exact h
        · cases hz (k + 1) (.word (wildcard 0)) (by simp [hk]) with
          | word h => rw [show j + 1 + k = j + (k + 1) by omega]; exact h)
    have hz' := like_zip w5 (by simpa using hle)
    have hs := like_snd w5
    rw [zip_snd (by simpa using hle)] at hs
    refine Shown.cons w1 w2.1 w2.2 (fun q => ?_) (fun lr E2 hm => ?_) (nxt ih hrd hp w4 hw hc hz w2.1 w2.2)
    · rw [uses, uses, usesAll_like (List.rel_append hs (.cons (fun _ => rfl) .nil))]
    · have hq : rens ρ (kids ++ .word tailWildcard :: List.replicate (arity c - args.length - 1) (.word (wildcard 0))) =
          rens ρ kids ++ .word tailWildcard :: List.replicate (arity c - args.length - 1) (.word (wildcard 0)) := by
        simp [rens_eq, ren]
      rw [ren, hq, hs.length_eq]
      exact .exprTail (kind hk) (isc hcl) ho (lab hl hE) (by rw [← hs.length_eq]; exact hn) (by rw [C.pat]; exact hpt)
        (by rw [← hs.length_eq, C.classes]; exact hmem) (by rw [← hz']; exact w3) hm
  | setU hk ho hn ha hr iha ih =>
    rename_i p K elems kids r ts D D1 D2
    intro i fl inSet close cmd wvi m zs E hrd hp hD hE hw hc hz
    have hp' := hp
    rw [List.map_cons, plains] at hp'
    obtain ⟨l', E1, m0, fl1, w1, w2, w3, w4, w5⟩ := sets (li := (elems.map fun x => (Pos.any, x))) (wvi := wvi)
      (close := close && (ts.length + m) == 0) iha (hrd 0 _ rfl) (by rw [map_snd]; exact hp'.1) (Means.len ha)
      (by simp; omega) (.inl (set_desc _)) hD hE hw
    have hz' := like_map w5
    have hs := like_snd w5
    rw [map_snd] at hs
    refine Shown.cons w1 w2.1 w2.2 (fun q => ?_) (fun lr E2 hm' => ?_) (nxt ih hrd hp w4 hw hc hz w2.1 w2.2)
    · rw [uses, uses, usesAll_like hs]
    · rw [ren, Option.map_none, hs.length_eq]
      exact .setU (kind hk) ho (by rw [← hs.length_eq]; exact hn) (by rw [← hz']; exact w3) hm'
  | setT hk hd hm hn hne hu ha hr iha ih =>
    rename_i p c elems kids r ts D D1 D2
    intro i fl inSet close cmd wvi m zs E hrd hp hD hE hw hc hz
    have hp' := hp
    rw [List.map_cons, plains] at hp'
    have hle : elems.length ≤ c.members.length := by rw [hm]; omega
    obtain ⟨l', E1, m0, fl1, w1, w2, w3, w4, w5⟩ := sets (li := ((c.members.map Pos.mem).zip elems)) (wvi := wvi)
      (close := close && (ts.length + m) == 0) iha (hrd 0 _ rfl) (by rw [zip_snd (by simpa using hle)]; exact hp'.1) (Means.len ha)
      (by simp; omega) (.inr hd) hD hE hw
    have hz' := like_zip w5 (by simpa using hle)
    have hs := like_snd w5
    rw [zip_snd (by simpa using hle)] at hs
    refine Shown.cons w1 w2.1 w2.2 (fun q => ?_) (fun lr E2 hm' => ?_) (nxt ih hrd hp w4 hw hc hz w2.1 w2.2)
    · rw [uses, uses, usesAll_like hs]
    · rw [ren, Option.map_none]
      exact .setT (kind hk) hd hm (by rw [← hs.length_eq]; exact hn) (by rw [← hs.length_eq]; exact hne) (fun mm hmm => by rw [C.classes, usesAll_like hs]; exact hu mm hmm) (by rw [← hz']; exact w3) hm'
  | setE hk hd hn hu ha hr iha ih =>
    rename_i p c elems kids r ts D D1 D2
    intro i fl inSet close cmd wvi m zs E hrd hp hD hE hw hc hz
    have hp' := hp
    rw [List.map_cons, plains] at hp'
    obtain ⟨l', E1, m0, fl1, w1, w2, w3, w4, w5⟩ := sets (li := (elems.map fun x => (Pos.ex c, x))) (wvi := wvi)
      (close := close && (ts.length + m) == 0) iha (hrd 0 _ rfl) (by rw [map_snd]; exact hp'.1) (Means.len ha)
      (by simp; omega) (.inl (set_desc _)) hD hE hw
    have hz' := like_map w5
    have hs := like_snd w5
    rw [map_snd] at hs
    refine Shown.cons w1 w2.1 w2.2 (fun q => ?_) (fun lr E2 hm' => ?_) (nxt ih hrd hp w4 hw hc hz w2.1 w2.2)
    · rw [uses, uses, usesAll_like hs]
    · rw [ren, Option.map_none, hs.length_eq]
      exact .setE (kind hk) hd (by rw [← hs.length_eq]; exact hn) (fun mm hmm => by rw [C.classes, usesAll_like hs]; exact hu mm hmm) (by rw [← hz']; exact w3) hm'
  | setS hk hn hu ha hr iha ih =>
    rename_i p c elems kids r ts D D1 D2
    intro i fl inSet close cmd wvi m zs E hrd hp hD hE hw hc hz
    have hp' := hp
    rw [List.map_cons, plains] at hp'
    obtain ⟨l', E1, m0, fl1, w1, w2, w3, w4, w5⟩ := sets (li := (elems.map fun x => (Pos.se c, x))) (wvi := wvi)
      (close := close && (ts.length + m) == 0) iha (hrd 0 _ rfl) (by rw [map_snd]; exact hp'.1) (Means.len ha)
      (by simp; omega) (.inl (set_desc _)) hD hE hw
    have hz' := like_map w5
    have hs := like_snd w5
    rw [map_snd] at hs
    refine Shown.cons w1 w2.1 w2.2 (fun q => ?_) (fun lr E2 hm' => ?_) (nxt ih hrd hp w4 hw hc hz w2.1 w2.2)
    · rw [uses, uses, usesAll_like hs]
    · rw [ren, Option.map_none, hs.length_eq]
      exact .setS (kind hk) (by rw [← hs.length_eq]; exact hn) (fun mm hmm => by rw [C.classes, usesAll_like hs]; exact hu mm hmm) (by rw [← hz']; exact w3) hm'

end Verif.Decomp
