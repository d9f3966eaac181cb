import Verif.Eval.Lemmas
/-!
# Evaluation: the values of expressions
-/
namespace Verif.Eval
open Verif.Atom Verif.Ctx

/-! ## Expressions have one value -/

theorem sem_op {L : Lang} {m : Mem} {p k : Nat} {r} (h : Sem L m (.expr p) k r) : m.at ⟨.stem, p⟩ = some .op := by
  cases h with
  | op h1 h2 => rw [Mem.at, h1, Option.map_some, h2]
  | opFails h1 h2 => rw [Mem.at, h1, Option.map_some, h2]
  | opdFails h1 h2 => rw [Mem.at, h1, Option.map_some, h2]

theorem yields_det {L : Lang} {w : Word} {vs : List Opd} {o o' : Opd} (h : Yields L w vs o) (h' : Yields L w vs o') : o = o' := by
  rcases h with h | ⟨x, f, h1, h2, h3⟩ <;> rcases h' with h' | ⟨x', f', h1', h2', h3'⟩
  · rw [h] at h'; cases h'; rfl
  · rw [h] at h1'; cases h1'
  · rw [h'] at h1; cases h1
  · rw [h2] at h2'; cases h2'; rw [h3] at h3'; cases h3'; rfl

theorem yields_fails {L : Lang} {w : Word} {vs : List Opd} {o : Opd} (h : Yields L w vs o) : ¬ Fails L w vs := by
  rintro ⟨x, h1, h2⟩
  rcases h with h | ⟨y, f, g1, g2, g3⟩
  · rw [h] at h1; cases h1
  · rcases h2 with h2 | ⟨f', y', h2, h3⟩
    · rw [g2] at h2; cases h2
    · rw [g2] at h2; cases h2; rw [g3] at h3; cases h3

theorem go_ptr_op {m : Mem} {i j : Nat} {d : Ctx} (h1 : m.at ⟨.stem, i⟩ = some (.iptr j)) (h2 : m.at ⟨.stem, j⟩ = some .op) : ¬ Go m ⟨.stem, i⟩ [] d := by
  intro h
  cases h with
  | here hf => obtain ⟨k, g1, g2⟩ := hf; rw [h1] at g1; cases g1; cases g2
  | iptr g1 g2 =>
    rw [h1] at g1
    cases g1
    obtain ⟨k, g3, g4⟩ := go_not_op g2
    have g3 : m.at ⟨.stem, j⟩ = some k := g3
    rw [h2] at g3
    cases g3
    exact g4 rfl
  | _ => simp_all

theorem go_var {m : Mem} {i v : Nat} {d : Ctx} (h1 : m.at ⟨.stem, i⟩ = some (.codevl v)) (h : Go m ⟨.stem, i⟩ [] d) : Go m ⟨.stem, v⟩ [] d := by
  cases h with
  | here hf => obtain ⟨k, g1, g2⟩ := hf; rw [h1] at g1; cases g1; cases g2
  | codevl g1 g2 => rw [h1] at g1; cases g1; exact g2
  | _ => simp_all

theorem sem_det {L : Lang} {m : Mem} (ht : m.tidy) {j : Job} {k : Nat} {r : Option (List Opd)} (h : Sem L m j k r) :
    ∀ {k' r'}, Sem L m j k' r' → r = r' := by
  induction h with
  | @value i d o g is =>
    intro k' r' h'
    generalize e : Job.cell i = j at h'
    induction h' generalizing i with
    | value g' i' => cases e; rw [Ins.go_det ht g g'] at is; rw [is_det is i']
    | ptr a b => cases e; exact absurd g (go_ptr_op a b)
    | var a b c => cases e; exact absurd (go_var a g) (go_ptr_op b c)
    | var' a b c ih => cases e; exact ih (go_var a g) rfl
    | _ => cases e
  | ptr a b _ ih =>
    intro k' r' h'
    cases h' with
    | value g' i' => exact absurd g' (go_ptr_op a b)
    | ptr a' b' c' => rw [a] at a'; cases a'; exact ih c'
    | var a' => rw [a] at a'; cases a'
    | var' a' => rw [a] at a'; cases a'
  | var a b c _ ih =>
    intro k' r' h'
    cases h' with
    | value g' i' => exact absurd (go_var a g') (go_ptr_op b c)
    | ptr a' b' c' => rw [a] at a'; cases a'
    | var a' b' _ d' => rw [a] at a'; cases a'; rw [b] at b'; cases b'; exact ih d'
    | var' a' b' => rw [a] at a'; cases a'; rw [b] at b'; cases b'
  | var' a b _ ih =>
    intro k' r' h'
    cases h' with
    | value g' i' => exact ih (.value (go_var a g') i')
    | ptr a' b' c' => rw [a] at a'; cases a'
    | var a' b' => rw [a] at a'; cases a'; rw [b] at b'; cases b'
    | var' a' b' c' => rw [a] at a'; cases a'; exact ih c'
  | op a b c d _ y _ ih =>
    intro k' r' h'
    cases h' with
    | op a' b' _ _ e' y' => rw [a] at a'; cases a'; cases ih e'; rw [yields_det y y']
    | opFails a' b' _ _ e' y' => rw [a] at a'; cases a'; cases ih e'; exact absurd y' (yields_fails y)
    | opdFails a' _ _ _ e' => rw [a] at a'; cases a'; cases ih e'
  | opFails a b c d _ y ih =>
    intro k' r' h'
    cases h' with
    | op a' b' _ _ e' y' => rw [a] at a'; cases a'; cases ih e'; exact absurd y (yields_fails y')
    | opFails a' b' _ _ e' y' => rfl
    | opdFails a' _ _ _ e' => rfl
  | opdFails a b c d _ ih =>
    intro k' r' h'
    cases h' with
    | op a' b' _ _ e' y' => rw [a] at a'; cases a'; cases ih e'
    | opFails a' b' _ _ e' y' => rfl
    | opdFails a' _ _ _ e' => rfl
  | nil => intro k' r' h'; cases h'; rfl
  | cons _ _ ih1 ih2 =>
    intro k' r' h'
    cases h' with
    | cons a b => cases ih1 a; cases ih2 b; rfl
    | fails a => cases ih1 a
    | fails' a b => cases ih2 b
  | fails _ ih1 =>
    intro k' r' h'
    cases h' with
    | cons a b => cases ih1 a
    | fails a => rfl
    | fails' a b => rfl
  | fails' _ _ ih1 ih2 =>
    intro k' r' h'
    cases h' with
    | cons a b => cases ih2 b
    | fails a => rfl
    | fails' a b => rfl

/-! ## States on the way -/

structure Inv (L : Lang) (m : Mem) (s : St) : Prop where
  rest : s.m.objs = m.objs ∧ s.m.pgm = m.pgm ∧ s.m.ipgm = m.ipgm ∧ s.m.inputs = m.inputs ∧ s.m.prods = m.prods
  vals : ∀ i w, m.values i = some w → s.m.values i = some w
  sized : Sized s
  stem : ∀ i, s.m.stem i = m.stem i ∨ (Pointed m i ∧ ∃ k o, Sem L m (.expr i) k (some [o]) ∧ Done s i o)

theorem Inv.keep {L : Lang} {m : Mem} (ha : apart m) {s : St} (h : Inv L m s) : Keep m s.m where
  word c w hw hk := by
    obtain ⟨sp, i⟩ := c
    cases sp with
    | stem =>
      rcases h.stem i with e | ⟨⟨e, _⟩, _⟩
      · exact e.trans hw
      · rw [Mem.at, hw, Option.map_some] at e
        exact absurd (Option.some.inj e) hk
    | val => exact h.vals i w hw
    | obj o => show (s.m.objs o).code i = some w; rw [h.rest.1]; exact hw
  body c n i w hc h1 h2 hw := by
    obtain ⟨sp, j⟩ := c
    cases sp with
    | stem =>
      rcases h.stem (j + i) with e | ⟨e, _⟩
      · exact e.trans hw
      · exact absurd ⟨by omega, by omega⟩ (ha j (j + i) n hc e)
    | val => exact h.vals _ w hw
    | obj o => show (s.m.objs o).code (j + i) = some w; rw [h.rest.1]; exact hw
  objs := h.rest.1
  pgm := h.rest.2.1
  ipgm := h.rest.2.2.1
  inputs := h.rest.2.2.2.1
  prods := h.rest.2.2.2.2

theorem done_not_op {s : St} {i : Nat} {o : Opd} (h : Done s i o) : s.m.at ⟨.stem, i⟩ ≠ some .op := by
  obtain ⟨d, _, _, _, x, h1, h2, _⟩ := done_deref ⟨fun _ => false, fun _ => false, fun _ => false, fun _ _ => .fail none, fun _ => none⟩ h
  rw [h1]
  rintro e
  cases e
  cases h2

/-- What was done stays. -/
def Ext (L : Lang) (m : Mem) (s s' : St) : Prop := ∀ i k o, Sem L m (.expr i) k (some [o]) → Done s i o → Done s' i o

theorem Ext.refl (L : Lang) (m : Mem) (s : St) : Ext L m s s := fun _ _ _ _ h => h
theorem Ext.trans {L : Lang} {m : Mem} {s t u : St} (a : Ext L m s t) (b : Ext L m t u) : Ext L m s u := fun i k o h d => b i k o h (a i k o h d)

theorem put_stem (s : St) (p : Nat) (o : Opd) (i : Nat) (h : i ≠ p) : (s.put p o).m.stem i = s.m.stem i := by
  cases o <;> simp [St.put, St.patch, St.push, h]

theorem put_values {s : St} (hs : Sized s) (p : Nat) (o : Opd) {i : Nat} {w : Word} (h : s.m.values i = some w) : (s.put p o).m.values i = some w := by
  cases o with
  | atom x => exact h
  | flat g ws =>
    have hi : i < s.nv := by
      rcases Nat.lt_or_ge i s.nv with e | e
      · exact e
      · rw [hs i e] at h; cases h
    show (if s.nv ≤ i ∧ i < s.nv + (g :: ws).length then (g :: ws)[i - s.nv]? else s.m.values i) = some w
    rw [if_neg (by intro e; omega), h]

theorem put_rest (s : St) (p : Nat) (o : Opd) : (s.put p o).m.objs = s.m.objs ∧ (s.put p o).m.pgm = s.m.pgm ∧ (s.put p o).m.ipgm = s.m.ipgm ∧
    (s.put p o).m.inputs = s.m.inputs ∧ (s.put p o).m.prods = s.m.prods := by
  cases o <;> exact ⟨rfl, rfl, rfl, rfl, rfl⟩

theorem put_nv (s : St) (p : Nat) (o : Opd) : (s.put p o).nv = s.nv + o.size := by
  cases o <;> rfl

theorem put_sized {s : St} (hs : Sized s) (p : Nat) (o : Opd) : Sized (s.put p o) := by
  intro i hi
  rw [put_nv] at hi
  cases o with
  | atom x => exact hs i hi
  | flat g ws =>
    have hi : s.nv + (ws.length + 1) ≤ i := hi
    show (if s.nv ≤ i ∧ i < s.nv + (g :: ws).length then (g :: ws)[i - s.nv]? else s.m.values i) = none
    rw [if_neg (by rw [List.length_cons]; omega)]
    exact hs i (by omega)

theorem put_done {s : St} (p : Nat) {o : Opd} (ho : o.ok) (hn : s.nv + o.size ≤ 4096) : Done (s.put p o) p o := by
  refine ⟨ho, ?_⟩
  cases o with
  | atom w => show (if p = p then some w else _) = some w; rw [if_pos rfl]
  | flat g ws =>
    have hn : s.nv + (ws.length + 1) ≤ 4096 := hn
    refine ⟨s.nv, by omega, ?_, ?_⟩
    · show (if p = p then some _ else _) = _; rw [if_pos rfl]
    · rw [wordsAt_get]
      refine ⟨rfl, fun t ht => ?_⟩
      show (if s.nv ≤ s.nv + (0 + t) ∧ s.nv + (0 + t) < s.nv + (g :: ws).length then (g :: ws)[s.nv + (0 + t) - s.nv]? else _) = _
      rw [if_pos ⟨by omega, by rw [List.length_cons]; omega⟩]
      congr 1
      omega

theorem done_put {s : St} (hs : Sized s) (p : Nat) (o' : Opd) {i : Nat} {o : Opd} (hi : i ≠ p) (h : Done s i o) : Done (s.put p o') i o := by
  obtain ⟨ok, h⟩ := h
  refine ⟨ok, ?_⟩
  cases o with
  | atom w => show (s.put p o').m.stem i = some w; rw [put_stem _ _ _ _ hi]; exact h
  | flat g ws =>
    obtain ⟨k, h1, h2, h3⟩ := h
    refine ⟨k, h1, by rw [put_stem _ _ _ _ hi]; exact h2, ?_⟩
    rw [wordsAt_get] at h3 ⊢
    refine ⟨h3.1, fun t ht => ?_⟩
    have e := h3.2 t ht
    rw [← e]
    have hl : t < (g :: ws).length := by rw [List.length_cons]; omega
    rw [List.getElem?_eq_getElem hl] at e
    rw [e]
    exact put_values hs p o' e

theorem put_inv {L : Lang} {m : Mem} {s : St} (h : Inv L m s) {p k : Nat} {o : Opd} (hp : Pointed m p) (hs : Sem L m (.expr p) k (some [o]))
    (ho : o.ok) (hn : s.nv + o.size ≤ 4096) : Inv L m (s.put p o) where
  rest := by
    obtain ⟨a, b, c, d, e⟩ := put_rest s p o
    rw [a, b, c, d, e]
    exact h.rest
  vals i w hw := put_values h.sized p o (h.vals i w hw)
  sized := put_sized h.sized p o
  stem i := by
    by_cases e : i = p
    · subst e; exact .inr ⟨hp, k, o, hs, put_done _ ho hn⟩
    · rcases h.stem i with g | ⟨g1, k', o', g2, g3⟩
      · exact .inl (by rw [put_stem _ _ _ _ e]; exact g)
      · exact .inr ⟨g1, k', o', g2, done_put h.sized p o e g3⟩

theorem put_ext {L : Lang} {m : Mem} (ht : m.tidy) {s : St} (hz : Sized s) {p k : Nat} {o : Opd} (hs : Sem L m (.expr p) k (some [o])) (ho : o.ok)
    (hn : s.nv + o.size ≤ 4096) : Ext L m s (s.put p o) := by
  intro i k' o' h d
  by_cases e : i = p
  · subst e
    cases sem_det ht hs h
    exact put_done _ ho hn
  · exact done_put hz p o e d

/-- An operator that failed before its overload: its mark is overwritten. -/
theorem mark_put (s : St) (p : Nat) (x : Option Word) (o : Opd) : (s.mark p x).put p o = s.put p o := by
  cases x with
  | none => rfl
  | some w =>
    cases o with
    | atom v =>
      simp only [St.mark, St.put, St.patch, St.mk.injEq, Mem.mk.injEq, and_true, true_and]
      funext i
      split <;> rfl
    | flat g ws =>
      simp only [St.mark, St.put, St.patch, St.push, St.mk.injEq, Mem.mk.injEq, and_true, true_and]
      refine ⟨?_, rfl⟩
      funext i
      split <;> rfl

theorem apply_yields {L : Lang} {s : St} {p : Nat} {w : Word} {vs : List Opd} {o : Opd} (h : Yields L w vs o) :
    apply L s p (opc w) vs = (s.put p o, true) := by
  rcases h with h | ⟨x, f, h1, h2, h3⟩
  · simp [apply, h]
  · simp [apply, h1, h2, h3, mark_put]

theorem apply_fails {L : Lang} {s : St} {p : Nat} {w : Word} {vs : List Opd} (h : Fails L w vs) : ∃ s', apply L s p (opc w) vs = (s', false) := by
  obtain ⟨x, h1, h2 | ⟨f, y, h2, h3⟩⟩ := h
  · exact ⟨s.mark p x, by simp [apply, h1, h2]⟩
  · exact ⟨(s.mark p x).mark p y, by simp [apply, h1, h2, h3]⟩

/-! ## Members -/

/-- The member is evaluated. -/
def CellOk (L : Lang) (s : St) (i : Nat) (s' : St) : Prop :=
  ∃ s1 d, Ev (fun N => derefE L N s i) (s1, some d) ∧ ((d.sp = .stem ∧ Ev (fun N => evalE L N s1 d.i) (s', true)) ∨ (d.sp ≠ .stem ∧ s' = s1))

def CellNo (L : Lang) (s : St) (i : Nat) (s' : St) : Prop :=
  Ev (fun N => derefE L N s i) (s', none) ∨ ∃ s1 d, Ev (fun N => derefE L N s i) (s1, some d) ∧ d.sp = .stem ∧ Ev (fun N => evalE L N s1 d.i) (s', false)

theorem CellOk.member {L : Lang} {s s' : St} {i : Nat} (h : CellOk L s i s') : Ev (fun N => member (derefE L N) (evalE L N) s i) (s', true) := by
  obtain ⟨s1, d, ⟨a, ha⟩, ⟨h1, b, hb⟩ | ⟨h1, rfl⟩⟩ := h
  · refine ⟨max a b, fun N hN => ?_⟩
    have e1 := ha N (by omega)
    have e2 := hb N (by omega)
    simp only [Eval.member, e1, h1, if_true, e2]
  · refine ⟨a, fun N hN => ?_⟩
    have e1 := ha N (by omega)
    simp only [Eval.member, e1, if_neg h1]

theorem CellNo.member {L : Lang} {s s' : St} {i : Nat} (h : CellNo L s i s') : Ev (fun N => member (derefE L N) (evalE L N) s i) (s', false) := by
  rcases h with ⟨a, ha⟩ | ⟨s1, d, ⟨a, ha⟩, h1, b, hb⟩
  · refine ⟨a, fun N hN => ?_⟩
    have e1 := ha N (by omega)
    simp only [Eval.member, e1]
  · refine ⟨max a b, fun N hN => ?_⟩
    have e1 := ha N (by omega)
    have e2 := hb N (by omega)
    simp only [Eval.member, e1, h1, if_true, e2]

/-- The member stands for the value. -/
def Ready (L : Lang) (s : St) (i : Nat) (o : Opd) : Prop :=
  ∃ d, Ev (fun N => derefE L N s i) (s, some d) ∧ Is s.m d o ∧ (d.sp = .stem → Ev (fun N => evalE L N s d.i) (s, true))

theorem Ready.ok {L : Lang} {s : St} {i : Nat} {o : Opd} (h : Ready L s i o) : CellOk L s i s := by
  obtain ⟨d, h1, h2, h3⟩ := h
  refine ⟨s, d, h1, ?_⟩
  by_cases e : d.sp = .stem
  · exact .inl ⟨e, h3 e⟩
  · exact .inr ⟨e, rfl⟩

/-- Why: a value as it was, or an expression that is done. -/
inductive Rd (L : Lang) (m : Mem) (s : St) : Nat → Opd → Prop
  | value {i d o} : Go m ⟨.stem, i⟩ [] d → Is m d o → Rd L m s i o
  | ptr {i j k o} : m.at ⟨.stem, i⟩ = some (.iptr j) → Sem L m (.expr j) k (some [o]) → Done s j o → Rd L m s i o
  | var {i v j k o} : m.at ⟨.stem, i⟩ = some (.codevl v) → m.at ⟨.stem, v⟩ = some (.iptr j) → Sem L m (.expr j) k (some [o]) → Done s j o → Rd L m s i o
  | var' {i v u o} : m.at ⟨.stem, i⟩ = some (.codevl v) → m.at ⟨.stem, v⟩ = some (.codevl u) → Rd L m s v o → Rd L m s i o

theorem Rd.mono {L : Lang} {m : Mem} {s s' : St} (h : Ext L m s s') {i : Nat} {o : Opd} (r : Rd L m s i o) : Rd L m s' i o := by
  induction r with
  | value a b => exact .value a b
  | ptr a b c => exact .ptr a b (h _ _ _ b c)
  | var a b c d => exact .var a b c (h _ _ _ c d)
  | var' a b _ ih => exact .var' a b ih

theorem ready_value {L : Lang} {m : Mem} (ht : m.tidy) {s : St} (K : Keep m s.m) {c d : Ctx} {ks : List Nat} {o : Opd} (hg : Go m c ks d) (hi : Is m d o) :
    c.sp = .stem → ks = [] → Ev (fun N => derefE L N s c.i) (s, some d) := by
  have self : ∀ {c : Ctx} {x : Kind}, Go m c [] d → c.sp = .stem → m.at c = some x → (∀ k, x ≠ .iptr k) → (∀ k, x ≠ .codevl k) → x ≠ .op →
      Ev (fun N => derefE L N s c.i) (s, some d) := by
    intro c x g hc hx h1 h2 h3
    obtain ⟨sp, i⟩ := c
    cases hc
    exact derefE_pure L (K.at hx h3) h1 h2 h3 (go_keep K ht g)
  induction hg with
  | here hf =>
    intro hc _
    obtain ⟨x, hx, hxf⟩ := hf
    exact self (.here ⟨x, hx, hxf⟩) hc hx (by rintro k rfl; cases hxf) (by rintro k rfl; cases hxf) (by rintro rfl; cases hxf)
  | @iptr c k d h g ih =>
    intro hc _
    obtain ⟨sp, i⟩ := c
    cases hc
    exact derefE_iptr L (K.at h (fun e => by cases e)) (ih hi self rfl rfl)
  | rptr h h2 h3 => intro hc _; exact self (.rptr h h2 h3) hc h (fun k e => by cases e) (fun k e => by cases e) (fun e => by cases e)
  | ipgm h h2 => intro hc _; exact self (.ipgm h h2) hc h (fun k e => by cases e) (fun k e => by cases e) (fun e => by cases e)
  | inobj h h2 h3 => intro hc _; exact self (.inobj h h2 h3) hc h (fun k e => by cases e) (fun k e => by cases e) (fun e => by cases e)
  | dinobj h h2 h3 => intro hc _; exact self (.dinobj h h2 h3) hc h (fun k e => by cases e) (fun k e => by cases e) (fun e => by cases e)
  | value h h2 h3 => intro hc _; exact self (.value h h2 h3) hc h (fun k e => by cases e) (fun k e => by cases e) (fun e => by cases e)
  | prod h h2 h3 => intro hc _; exact self (.prod h h2 h3) hc h (fun k e => by cases e) (fun k e => by cases e) (fun e => by cases e)
  | this h h2 => intro hc _; exact self (.this h h2) hc h (fun k e => by cases e) (fun k e => by cases e) (fun e => by cases e)
  | cptr h h2 h3 h4 => intro hc _; exact self (.cptr h h2 h3 h4) hc h (fun k e => by cases e) (fun k e => by cases e) (fun e => by cases e)
  | walk => intro _ e; cases e
  | @codevl c k d h hg ih =>
    intro hc _
    obtain ⟨sp, i⟩ := c
    cases hc
    obtain ⟨t1, t2⟩ := ht _ k h
    have h' := K.at h (fun e => by cases e)
    obtain ⟨x, hk, hne⟩ := go_not_op hg
    have hk' := K.at hk hne
    have ih := ih hi self rfl rfl
    by_cases hx : ∃ j, x = .iptr j
    · obtain ⟨j, rfl⟩ := hx
      have hgj : Go m ⟨.stem, j⟩ [] d := by
        cases hg with
        | here hf => obtain ⟨x, hx, hxf⟩ := hf; rw [hk] at hx; cases hx; simp [Kind.final] at hxf
        | iptr h1 h2 => rw [hk] at h1; cases h1; exact h2
        | _ => simp_all
      obtain ⟨y, hy, hyne⟩ := go_not_op hgj
      have hy' := K.at hy hyne
      by_cases hs : ∃ n, y = .struct n ∨ y = .raw n
      · obtain ⟨n, hn⟩ := hs
        have := go_struct hgj n (by rw [hy]; rcases hn with rfl | rfl <;> simp)
        subst this
        have := derefE_eval L h' hk' hy' (by rcases hn with rfl | rfl <;> rfl) (is_eval L (K.is hi))
        simpa using this
      · refine derefE_next L h' hk' rfl (fun j' e => ?_) ih
        cases e
        refine ⟨y, hy', ?_⟩
        cases y with
        | struct n => exact absurd ⟨n, .inl rfl⟩ hs
        | raw n => exact absurd ⟨n, .inr rfl⟩ hs
        | cptr n => exact absurd hy (t2 j n hk)
        | op => exact absurd rfl hyne
        | _ => rfl
    · refine derefE_next L h' hk' ?_ (fun j' e => absurd ⟨j', e⟩ hx) ih
      have t1' : ∀ n, x ≠ .struct n ∧ x ≠ .raw n ∧ x ≠ .cptr n := fun n => by
        have := t1 n; rw [hk] at this; simpa using this
      cases x with
      | struct n => exact absurd rfl (t1' n).1
      | raw n => exact absurd rfl (t1' n).2.1
      | cptr n => exact absurd rfl (t1' n).2.2
      | op => exact absurd rfl hne
      | _ => rfl

theorem Rd.ready {L : Lang} {m : Mem} (ht : m.tidy) {s : St} (K : Keep m s.m) {i : Nat} {o : Opd} (r : Rd L m s i o) : Ready L s i o := by
  induction r with
  | @value i d o a b =>
    refine ⟨d, ready_value ht K (c := ⟨.stem, i⟩) a b rfl rfl, K.is b, fun e => ?_⟩
    obtain ⟨sp, j⟩ := d
    cases e
    exact is_eval L (K.is b)
  | @ptr i j k o a b c =>
    obtain ⟨d, h1, h2, h3, _⟩ := done_deref L c
    refine ⟨d, derefE_iptr L (K.at a (fun e => by cases e)) h1, h2, fun e => ?_⟩
    rcases h3 with rfl | h3
    · exact done_eval L c
    · rw [h3] at e; cases e
  | @var i v j k o a b c hd =>
    obtain ⟨d, h1, h2, h3, x, h4, h5, _⟩ := done_deref L hd
    have b' := K.at b (fun e => by cases e)
    refine ⟨d, derefE_next L (K.at a (fun e => by cases e)) b' rfl (fun j' e => by cases e; exact ⟨x, h4, h5⟩) (derefE_iptr L b' h1), h2, fun e => ?_⟩
    rcases h3 with rfl | h3
    · exact done_eval L hd
    · rw [h3] at e; cases e
  | @var' i v u o a b _ ih =>
    obtain ⟨d, h1, h2, h3⟩ := ih
    exact ⟨d, derefE_next L (K.at a (fun e => by cases e)) (K.at b (fun e => by cases e)) rfl (fun j e => by cases e) h1, h2, h3⟩

/-- Consecutive members are ready. -/
def RdAll (L : Lang) (m : Mem) (s : St) : Nat → List Opd → Prop
  | _, [] => True
  | i, o :: vs => Rd L m s i o ∧ RdAll L m s (i + 1) vs

theorem RdAll.mono {L : Lang} {m : Mem} {s s' : St} (h : Ext L m s s') : ∀ {vs : List Opd} {i : Nat}, RdAll L m s i vs → RdAll L m s' i vs := by
  intro vs
  induction vs with
  | nil => intro i _; trivial
  | cons o vs ih => intro i r; exact ⟨r.1.mono h, ih r.2⟩

theorem RdAll.reads {L : Lang} {m : Mem} (ht : m.tidy) {s : St} (K : Keep m s.m) : ∀ {vs : List Opd} {i : Nat}, RdAll L m s i vs →
    Ev (fun N => reads (derefE L N) i vs.length s) (s, vs) := by
  intro vs
  induction vs with
  | nil => intro i _; exact Ev.const fun N => rfl
  | cons o vs ih =>
    intro i r
    obtain ⟨d, ⟨a, ha⟩, h2, _⟩ := r.1.ready ht K
    obtain ⟨b, hb⟩ := ih r.2
    refine ⟨max a b, fun N hN => ?_⟩
    have e1 := ha N (by omega)
    have e2 := hb N (by omega)
    simp only [List.length_cons, Eval.reads, e1, operand_is h2, Option.bind_some, e2, Option.map_some]

/-- What is shown of each part of a program. -/
def Good (L : Lang) (m : Mem) : Job → Nat → Option (List Opd) → Prop
  | .expr p, k, r => Pointed m p → ∀ s, Inv L m s → s.nv + k ≤ 4096 →
      match r with
      | none => s.m.stem p = m.stem p → ∃ s', Ev (fun N => evalE L N s p) (s', false)
      | some vs => s.m.stem p = m.stem p → ∃ s' o, vs = [o] ∧ Ev (fun N => evalE L N s p) (s', true) ∧ Inv L m s' ∧ Ext L m s s' ∧ s'.nv ≤ s.nv + k ∧ Done s' p o
  | .cell i, k, r => ∀ s, Inv L m s → s.nv + k ≤ 4096 →
      match r with
      | none => ∃ s', CellNo L s i s'
      | some vs => ∃ s' o, vs = [o] ∧ CellOk L s i s' ∧ Inv L m s' ∧ Ext L m s s' ∧ s'.nv ≤ s.nv + k ∧ Rd L m s' i o
  | .cells i n, k, r => ∀ s, Inv L m s → s.nv + k ≤ 4096 →
      match r with
      | none => ∃ s', Ev (fun N => loop (member (derefE L N) (evalE L N)) i n s) (s', false)
      | some vs => ∃ s', Ev (fun N => loop (member (derefE L N) (evalE L N)) i n s) (s', true) ∧ Inv L m s' ∧ Ext L m s s' ∧ s'.nv ≤ s.nv + k ∧
          vs.length = n ∧ RdAll L m s' i vs

theorem loop_step {f : Nat → St → Nat → Option (St × Bool)} {i n : Nat} {s s1 : St} {r} (h1 : Ev (fun N => f N s i) (s1, true))
    (h2 : Ev (fun N => loop (f N) (i + 1) n s1) r) : Ev (fun N => loop (f N) i (n + 1) s) r := by
  obtain ⟨a, ha⟩ := h1
  obtain ⟨b, hb⟩ := h2
  refine ⟨max a b, fun N hN => ?_⟩
  have e1 := ha N (by omega)
  have e2 := hb N (by omega)
  simp only [loop, e1, e2]

theorem loop_stop {f : Nat → St → Nat → Option (St × Bool)} {i n : Nat} {s s1 : St} (h1 : Ev (fun N => f N s i) (s1, false)) :
    Ev (fun N => loop (f N) i (n + 1) s) (s1, false) := by
  obtain ⟨a, ha⟩ := h1
  refine ⟨a, fun N hN => ?_⟩
  have e1 := ha N (by omega)
  simp only [loop, e1]

theorem sem_one {L : Lang} {m : Mem} {j : Job} {k : Nat} {r} (h : Sem L m j k r) : (∀ i n, j ≠ .cells i n) → ∀ vs, r = some vs → ∃ o, vs = [o] := by
  induction h with
  | value => intro _ vs e; cases e; exact ⟨_, rfl⟩
  | ptr _ _ _ ih => intro _; exact ih (fun i n e => by cases e)
  | var _ _ _ _ ih => intro _; exact ih (fun i n e => by cases e)
  | var' _ _ _ ih => intro _; exact ih (fun i n e => by cases e)
  | op => intro _ vs e; cases e; exact ⟨_, rfl⟩
  | opFails => intro _ vs e; cases e
  | opdFails => intro _ vs e; cases e
  | _ => intro h; exact absurd rfl (h _ _)

theorem sem_good {L : Lang} {m : Mem} (ht : m.tidy) (ha : apart m) {j : Job} {k : Nat} {r : Option (List Opd)} (h : Sem L m j k r) : Good L m j k r := by
  induction h with
  | value a b =>
    intro s hs hn
    have r : Rd L m s _ _ := .value a b
    exact ⟨s, _, rfl, (r.ready ht (hs.keep ha)).ok, hs, Ext.refl _ _ _, by omega, r⟩
  | @ptr i j k r a b c ih =>
    intro s hs hn
    have K := hs.keep ha
    have hp : Pointed m j := ⟨b, i, a⟩
    have a' := K.at a (fun e => by cases e)
    rcases hs.stem j with e | ⟨_, k', o, e1, e2⟩
    · have hop : s.m.at ⟨.stem, j⟩ = some .op := by
        rw [← b]; show Option.map kind (s.m.stem j) = Option.map kind (m.stem j); rw [e]
      have hd := derefE_iptr L a' (derefE_op L hop)
      have g := ih hp s hs hn
      cases r with
      | none =>
        obtain ⟨s', g⟩ := g e
        exact ⟨s', .inr ⟨s, _, hd, rfl, g⟩⟩
      | some vs =>
        obtain ⟨s', o, rfl, g1, g2, g3, g4, g5⟩ := g e
        exact ⟨s', o, rfl, ⟨s, _, hd, .inl ⟨rfl, g1⟩⟩, g2, g3, g4, .ptr a c g5⟩
    · cases sem_det ht c e1
      have rd : Rd L m s i o := .ptr a c e2
      exact ⟨s, o, rfl, (rd.ready ht K).ok, hs, Ext.refl _ _ _, by omega, rd⟩
  | @var i v j k r a b c d ih =>
    intro s hs hn
    have K := hs.keep ha
    have hp : Pointed m j := ⟨c, v, b⟩
    have a' := K.at a (fun e => by cases e)
    have b' := K.at b (fun e => by cases e)
    rcases hs.stem j with e | ⟨_, k', o, e1, e2⟩
    · have hop : s.m.at ⟨.stem, j⟩ = some .op := by
        rw [← c]; show Option.map kind (s.m.stem j) = Option.map kind (m.stem j); rw [e]
      have g := ih hp s hs hn
      cases r with
      | none =>
        obtain ⟨s', g⟩ := g e
        have := derefE_eval L a' b' hop rfl g
        exact ⟨s', .inl (by simpa using this)⟩
      | some vs =>
        obtain ⟨s', o, rfl, g1, g2, g3, g4, g5⟩ := g e
        have := derefE_eval L a' b' hop rfl g1
        exact ⟨s', o, rfl, ⟨s', ⟨.stem, j⟩, by simpa using this, .inl ⟨rfl, done_eval L g5⟩⟩, g2, g3, g4, .var a b d g5⟩
    · cases sem_det ht d e1
      have rd : Rd L m s i o := .var a b d e2
      exact ⟨s, o, rfl, (rd.ready ht K).ok, hs, Ext.refl _ _ _, by omega, rd⟩
  | @var' i v u k r a b c ih =>
    intro s hs hn
    have K := hs.keep ha
    have a' := K.at a (fun e => by cases e)
    have b' := K.at b (fun e => by cases e)
    have nx : ∀ {r}, Ev (fun N => derefE L N s v) r → Ev (fun N => derefE L N s i) r := fun h => derefE_next L a' b' rfl (fun j e => by cases e) h
    have g := ih s hs hn
    cases r with
    | none =>
      obtain ⟨s', g | ⟨s1, d, g1, g2, g3⟩⟩ := g
      · exact ⟨s', .inl (nx g)⟩
      · exact ⟨s', .inr ⟨s1, d, nx g1, g2, g3⟩⟩
    | some vs =>
      obtain ⟨s', o, rfl, ⟨s1, d, g1, g2⟩, g3, g4, g5, g6⟩ := g
      exact ⟨s', o, rfl, ⟨s1, d, nx g1, g2⟩, g3, g4, g5, .var' a b g6⟩
  | @op p w k vs o a b c d hc y ok ih =>
    intro hp s hs hn hst
    have hw : s.m.word ⟨.stem, p⟩ = some w := hst.trans a
    obtain ⟨s1, ⟨n1, h1⟩, h2, h3, h4, h5, h6⟩ := ih s hs (by omega)
    obtain ⟨n2, h7⟩ := h6.reads ht (h2.keep ha)
    have sem : Sem L m (.expr p) (k + o.size) (some [o]) := .op a b c d hc y ok
    refine ⟨s1.put p o, o, rfl, Ev.succ ⟨max n1 n2, fun N hN => ?_⟩, put_inv h2 hp sem ok (by omega), h3.trans (put_ext ht h2.sized sem ok (by omega)), ?_, put_done p ok (by omega)⟩
    · have e1 := h1 N (by omega)
      have e2 := h7 N (by omega)
      rw [h5] at e2
      simp only [evalE, hw, b, c, d, e1, e2, Option.map_some, apply_yields y]
      rfl
    · rw [put_nv]; omega
  | @opFails p w k vs a b c d hc y ih =>
    intro hp s hs hn hst
    have hw : s.m.word ⟨.stem, p⟩ = some w := hst.trans a
    obtain ⟨s1, ⟨n1, h1⟩, h2, h3, h4, h5, h6⟩ := ih s hs (by omega)
    obtain ⟨n2, h7⟩ := h6.reads ht (h2.keep ha)
    obtain ⟨s2, h8⟩ := apply_fails (s := s1) (p := p) y
    refine ⟨s2, Ev.succ ⟨max n1 n2, fun N hN => ?_⟩⟩
    have e1 := h1 N (by omega)
    have e2 := h7 N (by omega)
    rw [h5] at e2
    simp only [evalE, hw, b, c, d, e1, e2, Option.map_some, h8]
    rfl
  | @opdFails p w k a b c d hc ih =>
    intro hp s hs hn hst
    have hw : s.m.word ⟨.stem, p⟩ = some w := hst.trans a
    obtain ⟨s1, ⟨n1, h1⟩⟩ := ih s hs (by omega)
    refine ⟨s1, Ev.succ ⟨n1, fun N hN => ?_⟩⟩
    have e1 := h1 N (by omega)
    simp only [evalE, hw, b, c, d, e1]
    rfl
  | nil =>
    intro s hs hn
    exact ⟨s, Ev.const fun N => rfl, hs, Ext.refl _ _ _, by omega, rfl, trivial⟩
  | @cons i n k l o vs _ _ ih1 ih2 =>
    intro s hs hn
    obtain ⟨s1, o', e, h1, h2, h3, h4, h5⟩ := ih1 s hs (by omega)
    cases e
    obtain ⟨s2, g1, g2, g3, g4, g5, g6⟩ := ih2 s1 h2 (by omega)
    exact ⟨s2, loop_step h1.member g1, g2, h3.trans g3, by omega, by rw [List.length_cons, g5], h5.mono g3, g6⟩
  | @fails i n k _ ih1 =>
    intro s hs hn
    obtain ⟨s1, h1⟩ := ih1 s hs hn
    exact ⟨s1, loop_stop h1.member⟩
  | @fails' i n k l o _ _ ih1 ih2 =>
    intro s hs hn
    obtain ⟨s1, o', e, h1, h2, h3, h4, h5⟩ := ih1 s hs (by omega)
    obtain ⟨s2, g1⟩ := ih2 s1 h2 (by omega)
    exact ⟨s2, loop_step h1.member g1⟩

end Verif.Eval
