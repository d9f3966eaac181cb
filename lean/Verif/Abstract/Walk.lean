import Verif.Abstract.Lemmas
/-! Rows of members. -/
namespace Verif.Abstract
open Verif.Atom Verif.Words Verif.Values
open Verif.BindMap (BMap Slot)
open Verif.Match (Obj Heap Opc Tol isWild isVar isIPtr isRPtr Named SameAtom)
open Verif.Unify (Leaf Place Ok Ground Pair Fits GoodSlot Good)

/-- What holds of the heap and the map throughout. -/
structure Inv (h0 : List Obj) (K : Kinds) (t : Tol) (m0 : BMap) (H : List Obj) (m : BMap) : Prop where
  pre : h0 <+: H
  good : Good (heapOf h0) K.oc m
  tight : Tight m
  dist : Distinct t m0 → Distinct t m

theorem Inv.congr {h0 K t m0 H m m'} (h : Inv h0 K t m0 H m) (hs : m'.slots = m.slots) : Inv h0 K t m0 H m' where
  pre := h.pre
  good := fun v s hv => h.good v s (by rw [← hs]; exact hv)
  tight := fun v c w hv => h.tight v c w (by rw [← hs]; exact hv)
  dist := fun hd => by
    have := h.dist hd
    exact ⟨fun i j r hi hj => this.obj i j r (by rw [← hs]; exact hi) (by rw [← hs]; exact hj),
      fun i j x y hi hj => this.atom i j x y (by rw [← hs]; exact hi) (by rw [← hs]; exact hj)⟩

theorem Inv.heap {h0 K t m0 H H' m} (h : Inv h0 K t m0 H m) (hp : H <+: H') : Inv h0 K t m0 H' m :=
  ⟨h.pre.trans hp, h.good, h.tight, h.dist⟩

theorem Inv.found {h0 K t m0 H m m' v x Q} (h : Inv h0 K t m0 H m) (hf : Found m m' v x Q)
    (hg : GoodSlot (heapOf h0) K.oc m.slots.length (.bound x))
    (hx : ∀ c w, x = .struct c → c[0]? = some w → c.length = count w + 1)
    (hd : Distinct t m → Distinct t m') : Inv h0 K t m0 H m' := by
  rcases hf.new with hs | hs
  · exact ⟨h.pre, (h.congr hs).good, (h.congr hs).tight, fun e => hd (h.dist e)⟩
  · have hget : ∀ (i : Nat) y, m'.slots[i]? = some y →
        m.slots[i]? = some y ∨ (i = m.slots.length ∧ y = .bound x) := by
      intro i y hi
      rw [hs] at hi
      rcases Nat.lt_or_ge i m.slots.length with h | h
      · rw [List.getElem?_append_left h] at hi; exact Or.inl hi
      · rw [List.getElem?_append_right h] at hi
        have h0 : i - m.slots.length = 0 := by
          have := (List.getElem?_eq_some_iff.1 hi).1
          simp at this; omega
        rw [h0] at hi
        exact Or.inr ⟨by omega, by simpa using hi.symm⟩
    refine ⟨h.pre, fun v s hv => ?_, fun v c w hv hc hl => ?_, fun e => hd (h.dist e)⟩
    · rcases hget v s hv with hv | ⟨rfl, rfl⟩
      · exact h.good v s hv
      · exact hg
    · rcases hget v _ hv with hv | ⟨rfl, e⟩
      · exact h.tight v c w hv hc hl
      · cases e
        exact hx c w rfl hc

theorem Start.grow {m m' : BMap} {first : Int} (h : Start m first) (hs : m.slots <+: m'.slots) : Start m' first := by
  rcases h with h | h
  · exact Or.inl h
  · exact Or.inr (Nat.lt_of_lt_of_le h hs.length_le)

/-- From `P` to `P'`, having written the words in `W` and new structures. -/
structure Grown (P P' : Part) (W : Nat → Prop) : Prop where
  heap : P.heap <+: P'.heap
  slots : P.map.slots <+: P'.map.slots
  refs : P.obj.refs <+: P'.obj.refs
  ext : P.ext ≤ P'.ext
  len : P.obj.code.length ≤ P'.obj.code.length
  wrote : ∀ q, W q → q < P'.obj.code.length
  room : P'.ext ≤ max P.ext P'.obj.code.length
  keep : ∀ q, q < P.obj.code.length → ¬ W q → q < P.ext → P'.obj.code[q]? = P.obj.code[q]?

theorem Grown.refl (P : Part) : Grown P P fun _ => False :=
  ⟨List.prefix_rfl, List.prefix_rfl, List.prefix_rfl, Nat.le_refl _, Nat.le_refl _, fun _ h => h.elim, by omega,
    fun _ _ _ _ => rfl⟩

theorem Grown.trans {P P1 P2 : Part} {W W' : Nat → Prop} (h : Grown P P1 W) (h' : Grown P1 P2 W') :
    Grown P P2 fun q => W q ∨ W' q where
  heap := h.heap.trans h'.heap
  slots := h.slots.trans h'.slots
  refs := h.refs.trans h'.refs
  ext := Nat.le_trans h.ext h'.ext
  len := Nat.le_trans h.len h'.len
  wrote := fun q hq => hq.elim (fun hq => Nat.lt_of_lt_of_le (h.wrote q hq) h'.len) (h'.wrote q)
  room := by have := h.room; have := h'.room; have := h'.len; omega
  keep := fun q hq hw he => by
    rw [h'.keep q (Nat.lt_of_lt_of_le hq h.len) (fun x => hw (Or.inr x)) (Nat.lt_of_lt_of_le he h.ext)]
    exact h.keep q hq (fun x => hw (Or.inl x)) he

theorem Grown.weaken {P P' : Part} {W W' : Nat → Prop} (h : Grown P P' W) (hw : ∀ q, W q → W' q)
    (hw' : ∀ q, W' q → q < P'.obj.code.length) : Grown P P' W' :=
  ⟨h.heap, h.slots, h.refs, h.ext, h.len, hw', h.room, fun q h1 h2 h3 => h.keep q h1 (fun x => h2 (hw q x)) h3⟩

/-- In whatever becomes of `P'`, word `write` is the abstraction of word `i` of `o`. -/
def Held (n : Nat) (K : Kinds) (t : Tol) (P P' : Part) (write : Nat) (o : Obj) (i : Nat) : Prop :=
  ∀ (H : List Obj) (M : BMap) (O : Obj) a, P'.heap <+: H → P'.map.slots <+: M.slots → P'.obj.refs <+: O.refs →
    (∀ q, q = write ∨ (P.ext ≤ q ∧ q < P'.ext) → O.code[q]? = P'.obj.code[q]?) →
    Small n H → P'.ext ≤ 4096 → O.refs.length ≤ 4096 → M.slots.length ≤ 4096 → o.code[i]? = some a →
    ∃ v, O.code[write]? = some v ∧ Abs (heapOf H) K t (SameAtom t) M (.word o a O v)

/-- Abstracting word `i` of `o` succeeds. -/
def Step (h0 : List Obj) (K : Kinds) (t : Tol) (m0 : BMap) (g : Nat) (o : Obj) (i : Nat) : Prop :=
  ∀ P write first, Inv h0 K t m0 P.heap P.map → Start P.map first → write < P.ext →
    ∃ P', absMember K t g o P i write first = some P' ∧ Inv h0 K t m0 P'.heap P'.map ∧
      Grown P P' (· = write) ∧ Held h0.length K t P P' write o i

theorem Held.later {n K t P P1 P2 P3 w o i} {W W' : Nat → Prop} (h : Held n K t P1 P2 w o i) (h0 : Grown P P1 W')
    (h12 : Grown P1 P2 (· = w)) (h23 : Grown P2 P3 W) (hw : ¬ W w) (hlt : w < P1.ext) (hW : ∀ q, W q → q < P.ext) :
    Held n K t P P3 w o i := by
  intro H M O a h1 h2 h3 h4 h5 h6 h7 h8 h9
  refine h H M O a (h23.heap.trans h1) (h23.slots.trans h2) (h23.refs.trans h3) (fun q hq => ?_) h5
    (Nat.le_trans h23.ext h6) h7 h8 h9
  have hq' : O.code[q]? = P3.obj.code[q]? := by
    refine h4 q ?_
    rcases hq with hq | ⟨hq, hq'⟩
    · exact Or.inl hq
    · exact Or.inr ⟨Nat.le_trans h0.ext hq, Nat.lt_of_lt_of_le hq' h23.ext⟩
  rw [hq']
  have hroom := h12.room
  have hext := h12.ext
  rcases hq with rfl | ⟨ha, hb⟩
  · exact h23.keep q (h12.wrote q rfl) hw (by omega)
  · exact h23.keep q (by omega) (fun x => by have := hW q x; have := h0.ext; omega) hb

/-- Calls in a row: what is read, where it is written, where the search starts. -/
def row (rec : Part → Nat → Nat → Int → Option Part) : List (Nat × Nat × Int) → Part → Option Part
  | [], P => some P
  | (i, write, first) :: l, P => (rec P i write first).bind (row rec l)

theorem absRow_row (rec : Part → Nat → Nat → Int → Option Part) : ∀ l P,
    absRow rec l P = row rec (l.map fun x => (x.1, x.1, x.2)) P := by
  intro l
  induction l with
  | nil => intro P; rfl
  | cons x l ih =>
    intro P
    obtain ⟨i, first⟩ := x
    simp only [absRow, List.map_cons, row]
    congr 1
    funext P
    exact ih P

/-- The members of a structure. -/
def span (first : Int) : Nat → Nat → Nat → List (Nat × Nat × Int)
  | 0, _, _ => []
  | k + 1, i, write => (i, write, first) :: span first k (i + 1) (write + 1)

theorem absMembers_row (rec : Part → Nat → Nat → Int → Option Part) (first : Int) : ∀ k i write P,
    absMembers (fun P i write => rec P i write first) k i write P = row rec (span first k i write) P := by
  intro k
  induction k with
  | zero => intro i write P; rfl
  | succ k ih =>
    intro i write P
    simp only [absMembers, span, row]
    congr 1
    funext P
    exact ih (i + 1) (write + 1) P

theorem mem_span {first : Int} : ∀ {k i write : Nat} {x : Nat × Nat × Int}, x ∈ span first k i write ↔
    ∃ j, j < k ∧ x = (i + j, write + j, first) := by
  intro k
  induction k with
  | zero => intro i write x; simp [span]
  | succ k ih =>
    intro i write x
    simp only [span, List.mem_cons, ih]
    constructor
    · rintro (rfl | ⟨j, hj, rfl⟩)
      · exact ⟨0, by omega, by simp⟩
      · exact ⟨j + 1, by omega, by simp; omega⟩
    · rintro ⟨j, hj, rfl⟩
      rcases j with _ | j
      · exact Or.inl (by simp)
      · exact Or.inr ⟨j, by omega, by simp; omega⟩

theorem span_apart {first : Int} : ∀ k i write, (span first k i write).Pairwise fun x y => x.2.1 ≠ y.2.1 := by
  intro k
  induction k with
  | zero => intro i write; exact List.Pairwise.nil
  | succ k ih =>
    intro i write
    refine List.Pairwise.cons (fun y hy => ?_) (ih _ _)
    obtain ⟨j, hj, rfl⟩ := mem_span.1 hy
    simp only
    omega

theorem row_spec {h0 : List Obj} {K : Kinds} {t : Tol} {m0 : BMap} {g : Nat} {o : Obj} :
    ∀ (l : List (Nat × Nat × Int)) (P : Part), (∀ x, x ∈ l → Step h0 K t m0 g o x.1) →
    Inv h0 K t m0 P.heap P.map → (∀ x, x ∈ l → Start P.map x.2.2 ∧ x.2.1 < P.ext) →
    l.Pairwise (fun x y => x.2.1 ≠ y.2.1) →
    ∃ P', row (absMember K t g o) l P = some P' ∧ Inv h0 K t m0 P'.heap P'.map ∧
      Grown P P' (fun q => ∃ x, x ∈ l ∧ q = x.2.1) ∧
      ∀ x, x ∈ l → Held h0.length K t P P' x.2.1 o x.1 := by
  intro l
  induction l with
  | nil =>
    intro P _ hi _ _
    exact ⟨P, rfl, hi, (Grown.refl P).weaken (fun _ h => h.elim) (fun _ ⟨_, h, _⟩ => by cases h), fun _ h => by cases h⟩
  | cons x l ih =>
    intro P hs hi hx hp
    obtain ⟨i, write, first⟩ := x
    rw [List.pairwise_cons] at hp
    obtain ⟨P1, h1, hi1, hg1, hh1⟩ := hs _ (List.mem_cons_self ..) P write first hi (hx _ (List.mem_cons_self ..)).1
      (hx _ (List.mem_cons_self ..)).2
    obtain ⟨P2, h2, hi2, hg2, hh2⟩ := ih P1 (fun y hy => hs y (List.mem_cons_of_mem _ hy)) hi1
      (fun y hy => ⟨(hx y (List.mem_cons_of_mem _ hy)).1.grow hg1.slots,
        Nat.lt_of_lt_of_le (hx y (List.mem_cons_of_mem _ hy)).2 hg1.ext⟩) hp.2
    refine ⟨P2, by simp only [row, h1, Option.bind_some]; exact h2, hi2, (hg1.trans hg2).weaken ?_ ?_, ?_⟩
    · rintro q (rfl | ⟨y, hy, rfl⟩)
      · exact ⟨_, List.mem_cons_self .., rfl⟩
      · exact ⟨y, List.mem_cons_of_mem _ hy, rfl⟩
    · rintro q ⟨y, hy, rfl⟩
      rcases List.mem_cons.1 hy with rfl | hy
      · exact Nat.lt_of_lt_of_le (hg1.wrote _ rfl) hg2.len
      · exact hg2.wrote _ ⟨y, hy, rfl⟩
    · intro y hy
      rcases List.mem_cons.1 hy with rfl | hy
      · refine hh1.later (Grown.refl P) hg1 hg2 ?_ (hx _ (List.mem_cons_self ..)).2 ?_
        · rintro ⟨y, hy, e⟩
          exact hp.1 y hy e
        · rintro q ⟨y, hy, rfl⟩
          exact (hx y (List.mem_cons_of_mem _ hy)).2
      · intro H M O a g1 g2 g3 g4 g5 g6 g7 g8 g9
        refine hh2 y hy H M O a g1 g2 g3 (fun q hq => g4 q ?_) g5 g6 g7 g8 g9
        rcases hq with hq | ⟨hq, hq'⟩
        · exact Or.inl hq
        · exact Or.inr ⟨Nat.le_trans hg1.ext hq, hq'⟩

/-! ## Writing words -/

theorem put_length (c : Code) (i : Nat) (w : Word) : (put c i w).length = max c.length (i + 1) := by
  simp [put, grow]; omega

theorem put_keep {c : Code} {i q : Nat} (w : Word) (h : q ≠ i) (hq : q < c.length) : (put c i w)[q]? = c[q]? :=
  put_get c i q w (fun e => h e.symm) hq

/-- A word is written, nothing else than the heap, the map and the references may grow. -/
theorem grown_put {P : Part} {H : List Obj} {m : BMap} {w : Word} {rs : List Nat} {i : Nat} (hH : P.heap <+: H)
    (hm : P.map.slots <+: m.slots) (hr : P.obj.refs <+: rs) :
    Grown P ⟨H, m, { P.obj with code := put P.obj.code i w, refs := rs }, P.ext⟩ (· = i) where
  heap := hH
  slots := hm
  refs := hr
  ext := Nat.le_refl _
  len := by simp only [put_length]; omega
  wrote := fun q h => by subst h; simp only [put_length]; omega
  room := by simp only; omega
  keep := fun q h1 h2 _ => put_keep w h2 h1

end Verif.Abstract
