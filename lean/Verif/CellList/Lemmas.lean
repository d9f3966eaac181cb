import Verif.CellList.Model
/-! Proof internals: the representation invariant of `r_code::list` and its preservation. -/
namespace Verif.CellList

variable {α : Type}

/-- First position of a chain. -/
def hd (l : List (Nat × α)) : Option Nat := l.head?.map Prod.fst
/-- Last position of a chain. -/
def lst (l : List (Nat × α)) : Option Nat := l.getLast?.map Prod.fst
/-- The positions of a chain. -/
def keys (l : List (Nat × α)) : List Nat := l.map Prod.fst

@[simp] theorem hd_nil : hd ([] : List (Nat × α)) = none := rfl
@[simp] theorem hd_cons (e : Nat × α) (l) : hd (e :: l) = some e.1 := rfl
@[simp] theorem lst_nil : lst ([] : List (Nat × α)) = none := rfl
@[simp] theorem hd_append (a b : List (Nat × α)) : hd (a ++ b) = (hd a).or (hd b) := by
  cases a <;> simp [hd]
theorem lst_append (a b : List (Nat × α)) : lst (a ++ b) = (lst b).or (lst a) := by
  simp only [lst, List.getLast?_append]; cases b.getLast? <;> simp
theorem lst_cons (e : Nat × α) (l) : lst (e :: l) = (lst l).or (some e.1) := by
  simp only [lst, List.getLast?_cons]; cases l.getLast? <;> simp
@[simp] theorem lst_concat (a : List (Nat × α)) (e : Nat × α) : lst (a ++ [e]) = some e.1 := by
  simp [lst]
@[simp] theorem keys_nil : keys ([] : List (Nat × α)) = [] := rfl
@[simp] theorem keys_cons (e : Nat × α) (l) : keys (e :: l) = e.1 :: keys l := rfl
@[simp] theorem keys_append (a b : List (Nat × α)) : keys (a ++ b) = keys a ++ keys b := by
  simp [keys]
theorem lst_mem {l : List (Nat × α)} {i : Nat} (h : lst l = some i) : i ∈ keys l := by
  simp only [lst, Option.map_eq_some_iff] at h
  obtain ⟨e, he, rfl⟩ := h
  exact List.mem_map_of_mem (List.mem_of_getLast? he)
theorem hd_mem {l : List (Nat × α)} {i : Nat} (h : hd l = some i) : i ∈ keys l := by
  cases l with
  | nil => simp at h
  | cons e l => simp at h; simp [h]

/-- A doubly linked segment: predecessor of its first cell `p`, successor of its last cell `q`. -/
def Seg (m : Nat → Option (Cell α)) : Option Nat → List (Nat × α) → Option Nat → Prop
  | _, [], _ => True
  | p, e :: l, q => m e.1 = some ⟨(hd l).or q, p, e.2⟩ ∧ Seg m (some e.1) l q

/-- A singly linked segment (the free list). -/
def FSeg (m : Nat → Option (Cell α)) : List Nat → Prop
  | [] => True
  | i :: l => (∃ c, m i = some c ∧ c.next = l.head?) ∧ FSeg m l

theorem seg_append (m : Nat → Option (Cell α)) (a b : List (Nat × α)) (p q : Option Nat) :
    Seg m p (a ++ b) q ↔ Seg m p a ((hd b).or q) ∧ Seg m ((lst a).or p) b q := by
  induction a generalizing p with
  | nil => simp [Seg]
  | cons e a ih =>
    simp only [List.cons_append, Seg, ih, hd_append, lst_cons, Option.or_assoc, Option.some_or]
    constructor
    · rintro ⟨h1, h2, h3⟩; exact ⟨⟨h1, h2⟩, h3⟩
    · rintro ⟨⟨h1, h2⟩, h3⟩; exact ⟨h1, h2, h3⟩

theorem seg_frame {m m' : Nat → Option (Cell α)} {l : List (Nat × α)} {p q : Option Nat}
    (h : ∀ i ∈ keys l, m' i = m i) (hs : Seg m p l q) : Seg m' p l q := by
  induction l generalizing p with
  | nil => trivial
  | cons e l ih =>
    obtain ⟨h1, h2⟩ := hs
    exact ⟨by rw [h e.1 (by simp), h1], ih (fun i hi => h i (by simp [hi])) h2⟩

theorem fseg_frame {m m' : Nat → Option (Cell α)} {l : List Nat}
    (h : ∀ i ∈ l, m' i = m i) (hs : FSeg m l) : FSeg m' l := by
  induction l with
  | nil => trivial
  | cons e l ih =>
    obtain ⟨⟨c, h1, h1'⟩, h2⟩ := hs
    exact ⟨⟨c, by rw [h e (by simp), h1], h1'⟩, ih (fun i hi => h i (by simp [hi])) h2⟩

theorem seg_mem {m : Nat → Option (Cell α)} {l : List (Nat × α)} {p q : Option Nat}
    (hs : Seg m p l q) {i : Nat} (hi : i ∈ keys l) : ∃ c, m i = some c := by
  induction l generalizing p with
  | nil => simp at hi
  | cons e l ih =>
    obtain ⟨h1, h2⟩ := hs
    simp only [keys_cons, List.mem_cons] at hi
    rcases hi with rfl | hi
    · exact ⟨_, h1⟩
    · exact ih h2 hi

/-- The representation invariant: `u` is the used chain, `f` the free chain. -/
structure Rep (s : St α) (u : List (Nat × α)) (f : List Nat) : Prop where
  seg : Seg s.cell none u none
  fseg : FSeg s.cell f
  nodup : (keys u ++ f).Nodup
  bound : ∀ i ∈ keys u ++ f, i < s.n
  hhead : s.head = hd u
  htail : s.tail = lst u
  hfree : s.free = f.head?
  hused : s.used = u.length
  hfc : s.freeCount = f.length
  size : s.n = u.length + f.length

theorem rep_empty : Rep (empty : St α) [] [] := by
  constructor <;> simp [empty, Seg, FSeg]

theorem cell_wr (s : St α) (i j : Nat) (c : Cell α) :
    (wr s i c).cell j = if j = i then some c else s.cell j := rfl

theorem rd_some (s : St α) (i : Nat) : rd s (some i) = s.cell i := rfl

/-- Linking a fresh last cell behind a chain (the effect of `update_used_cells_tail_state`). -/
theorem updateTail_spec (s : St α) (u : List (Nat × α)) (i : Nat) (t : α)
    (hseg : Seg s.cell none u none) (hi : s.cell i = some ⟨none, lst u, t⟩)
    (hni : i ∉ keys u) (hnd : (keys u).Nodup) (hh : s.head = hd u) (ht : s.tail = some i) :
    ∃ s', updateTail s = some s' ∧ Seg s'.cell none (u ++ [(i, t)]) none ∧
      (∀ j, j ∉ keys u → s'.cell j = s.cell j) ∧ s'.n = s.n ∧ s'.head = hd (u ++ [(i, t)]) ∧
      s'.tail = some i ∧ s'.free = s.free ∧ s'.used = s.used + 1 ∧ s'.freeCount = s.freeCount := by
  rcases List.eq_nil_or_concat u with rfl | ⟨a, e, rfl⟩
  · refine ⟨{ s with head := s.tail, used := s.used + 1 }, ?_, ?_, ?_⟩
    · simp [updateTail, ht, rd_some, hi, hh]
    · simp [Seg, hi]
    · simp [ht]
  · rw [List.concat_eq_append] at *
    have hp := (seg_append _ _ _ _ _).mp hseg
    simp only [hd_cons, Option.some_or, Seg, hd_nil, Option.none_or, and_true] at hp
    obtain ⟨hp1, hp2⟩ := hp
    simp only [lst_concat] at hi
    have hei : e.1 ≠ i := by
      rintro rfl; exact hni (by simp)
    refine ⟨{ wr s e.1 ⟨some i, (lst a).or none, e.2⟩ with used := s.used + 1 }, ?_, ?_, ?_, ?_⟩
    · have hne : s.head ≠ none := by rw [hh]; cases a <;> simp
      simp [updateTail, ht, rd_some, hi, hp2, wr, hne]
    · rw [List.append_assoc, seg_append]
      simp only [List.cons_append, List.nil_append, hd_cons, Option.some_or, Seg, hd_nil,
        Option.none_or, and_true, cell_wr, if_true]
      refine ⟨?_, trivial, ?_⟩
      · refine seg_frame (fun j hj => ?_) hp1
        rw [cell_wr, if_neg]
        rintro rfl
        simp only [keys_append, keys_cons, keys_nil] at hnd
        exact (List.nodup_append.mp hnd).2.2 _ hj _ (by simp) rfl
      · rw [if_neg (Ne.symm hei), hi]
    · intro j hj
      show (wr s e.1 _).cell j = _
      rw [cell_wr, if_neg]
      rintro rfl; exact hj (by simp)
    · refine ⟨rfl, ?_, ht, rfl, rfl, rfl⟩
      show s.head = _
      rw [hh]; cases a <;> simp

/-- Linking a fresh first cell (the effect of `update_used_cells_head_state`). -/
theorem updateHead_spec (s : St α) (u : List (Nat × α)) (i : Nat) (t : α)
    (hseg : Seg s.cell none u none) (hi : s.cell i = some ⟨hd u, none, t⟩)
    (hni : i ∉ keys u) (hnd : (keys u).Nodup) (ht : s.tail = lst u) (hh : s.head = some i) :
    ∃ s', updateHead s = some s' ∧ Seg s'.cell none ((i, t) :: u) none ∧
      (∀ j, j ∉ keys u → s'.cell j = s.cell j) ∧ s'.n = s.n ∧ s'.head = some i ∧
      s'.tail = lst ((i, t) :: u) ∧ s'.free = s.free ∧ s'.used = s.used + 1 ∧
      s'.freeCount = s.freeCount := by
  cases u with
  | nil =>
    refine ⟨{ s with tail := s.head, used := s.used + 1 }, ?_, ?_, ?_⟩
    · simp only [hd_nil] at hi
      simp [updateHead, hh, rd_some, hi, ht]
    · simpa [Seg] using hi
    · simp [hh, lst]
  | cons e b =>
    obtain ⟨h1, h2⟩ := hseg
    simp only [hd_cons] at hi
    have hei : e.1 ≠ i := by
      rintro rfl; exact hni (by simp)
    refine ⟨{ wr s e.1 ⟨(hd b).or none, some i, e.2⟩ with used := s.used + 1 }, ?_, ?_, ?_, ?_⟩
    · have hne : s.tail ≠ none := by
        rw [ht, lst_cons]; cases lst b <;> simp
      simp [updateHead, hh, rd_some, hi, h1, wr, hne]
    · refine ⟨?_, ?_, ?_⟩
      · show (wr s e.1 _).cell i = _
        rw [cell_wr, if_neg (Ne.symm hei), hi]; simp
      · show (wr s e.1 _).cell e.1 = _
        rw [cell_wr, if_pos rfl]
      · refine seg_frame (fun j hj => ?_) h2
        show (wr s e.1 _).cell j = _
        rw [cell_wr, if_neg]
        rintro rfl
        simp only [keys_cons, List.nodup_cons] at hnd
        exact hnd.1 hj
    · intro j hj
      show (wr s e.1 _).cell j = _
      rw [cell_wr, if_neg]
      rintro rfl; exact hj (by simp)
    · refine ⟨rfl, hh, ?_, rfl, rfl, rfl⟩
      show s.tail = _
      rw [ht]; simp only [lst_cons]; cases lst b <;> simp

/-- Appending: the new element gets a position that was not in use; with a free cell it is the
first free one. -/
theorem pushBack_spec {s : St α} {u : List (Nat × α)} {f : List Nat} (r : Rep s u f) (t : α) :
    ∃ i s' f', pushBack s t = some s' ∧ pushBackLoc s t = some (some i, s') ∧ i ∉ keys u ∧
      Rep s' (u ++ [(i, t)]) f' := by
  have hndu : (keys u).Nodup := (List.nodup_append.mp r.nodup).1
  cases f with
  | nil =>
    have hfc : s.freeCount = 0 := r.hfc
    have hn : s.n ∉ keys u := fun h => Nat.lt_irrefl _ (r.bound _ (by simp [h]))
    obtain ⟨s', h1, h2, h3, h4, h5, h6, h7, h8, h9⟩ :=
      updateTail_spec (pushBackNewCell s t) u s.n t
        (seg_frame (m := s.cell) (fun j hj => by
          show (wr _ _ _).cell j = _
          rw [cell_wr, if_neg (by rintro rfl; exact hn hj)]) r.seg)
        (by show (wr _ _ _).cell _ = _; rw [cell_wr, if_pos rfl]; simp [r.htail])
        hn hndu r.hhead (by simp [pushBackNewCell, wr])
    have htail : (pushBackNewCell s t).tail = some s.n := by simp [pushBackNewCell, wr]
    refine ⟨s.n, s', [], ?_, ?_, hn, ?_⟩
    · simp [pushBack, hfc, h1]
    · simp [pushBackLoc, hfc, h1, htail]
    · refine ⟨h2, trivial, ?_, ?_, h5, by rw [h6]; simp, ?_, ?_, ?_, ?_⟩
      · simp only [keys_append, keys_cons, keys_nil, List.append_nil]
        rw [List.nodup_append]
        refine ⟨hndu, by simp, ?_⟩
        intro a ha b hb
        simp only [List.mem_singleton] at hb
        rintro rfl; subst hb; exact hn ha
      · intro i hi
        rw [h4]
        simp only [keys_append, keys_cons, keys_nil, List.append_nil, List.mem_append,
          List.mem_singleton] at hi
        show i < s.n + 1
        rcases hi with hi | rfl
        · have := r.bound i (by simp [hi]); omega
        · omega
      · rw [h7]; exact r.hfree
      · rw [h8]; simp only [List.length_append, List.length_singleton]
        show s.used + 1 = _
        rw [r.hused]
      · rw [h9]; exact r.hfc
      · rw [h4]; simp only [List.length_append, List.length_singleton, List.length_nil]
        show s.n + 1 = _
        have := r.size; simp at this; omega
  | cons g f =>
    have hfc : s.freeCount ≠ 0 := by rw [r.hfc]; simp
    obtain ⟨⟨c, hc1, hc2⟩, hfs⟩ := r.fseg
    have hfree : s.free = some g := r.hfree
    have hnd := r.nodup
    have hg : g ∉ keys u := by
      intro h
      exact (List.nodup_append.mp hnd).2.2 g h g (by simp) rfl
    have hgf : g ∉ f := (List.nodup_cons.mp (List.nodup_append.mp hnd).2.1).1
    let s0 : St α := { wr { s with free := c.next, freeCount := s.freeCount - 1 } g
      ⟨none, s.tail, t⟩ with tail := some g }
    have hs0 : pushBackFreeCell s t = some s0 := by
      simp [pushBackFreeCell, hfree, rd_some, hc1, s0, wr]
    have hcell : ∀ j, j ≠ g → s0.cell j = s.cell j := fun j hj => by simp [s0, wr, hj]
    obtain ⟨s', h1, h2, h3, h4, h5, h6, h7, h8, h9⟩ :=
      updateTail_spec s0 u g t
        (seg_frame (m := s.cell) (fun j hj => hcell j (by rintro rfl; exact hg hj)) r.seg)
        (by simp [s0, wr, r.htail]) hg hndu (by simp [s0, wr, r.hhead]) rfl
    refine ⟨g, s', f, ?_, ?_, hg, ?_⟩
    · simp [pushBack, hfc, hs0, h1]
    · simp [pushBackLoc, hfc, hs0, h1, hfree]
    · refine ⟨h2, ?_, ?_, ?_, h5, by rw [h6]; simp, ?_, ?_, ?_, ?_⟩
      · refine fseg_frame (fun j hj => ?_) hfs
        have hjg : j ≠ g := by rintro rfl; exact hgf hj
        rw [h3 j, hcell j hjg]
        intro hju
        exact (List.nodup_append.mp hnd).2.2 j hju j (by simp [hj]) rfl
      · have : (keys (u ++ [(g, t)]) ++ f) = keys u ++ (g :: f) := by simp
        rw [this]; exact hnd
      · intro i hi
        rw [h4]
        exact r.bound i (by simpa using hi)
      · rw [h7]; show c.next = _; rw [hc2]
      · rw [h8]; show s.used + 1 = _; rw [r.hused]; simp
      · rw [h9]; show s.freeCount - 1 = _; rw [r.hfc]; simp
      · rw [h4]; show s.n = _; rw [r.size]; simp; omega

/-- Prepending. -/
theorem pushFront_spec {s : St α} {u : List (Nat × α)} {f : List Nat} (r : Rep s u f) (t : α) :
    ∃ i s' f', pushFront s t = some s' ∧ i ∉ keys u ∧ Rep s' ((i, t) :: u) f' ∧
      pushFrontLoc s t = some (if f = [] then lst u else some i, s') := by
  have hndu : (keys u).Nodup := (List.nodup_append.mp r.nodup).1
  cases f with
  | nil =>
    have hfc : s.freeCount = 0 := r.hfc
    have hn : s.n ∉ keys u := fun h => Nat.lt_irrefl _ (r.bound _ (by simp [h]))
    obtain ⟨s', h1, h2, h3, h4, h5, h6, h7, h8, h9⟩ :=
      updateHead_spec (pushFrontNewCell s t) u s.n t
        (seg_frame (m := s.cell) (fun j hj => by
          show (wr _ _ _).cell j = _
          rw [cell_wr, if_neg (by rintro rfl; exact hn hj)]) r.seg)
        (by show (wr _ _ _).cell _ = _; rw [cell_wr, if_pos rfl]; simp [r.hhead])
        hn hndu r.htail (by simp [pushFrontNewCell, wr])
    have htail : (pushFrontNewCell s t).tail = lst u := r.htail
    refine ⟨s.n, s', [], ?_, hn, ?_, ?_⟩
    · simp [pushFront, hfc, h1]
    · refine ⟨h2, trivial, ?_, ?_, by rw [h5]; simp, h6, ?_, ?_, ?_, ?_⟩
      · simp only [keys_cons, List.append_nil, List.nodup_cons]
        exact ⟨hn, hndu⟩
      · intro i hi
        rw [h4]
        simp only [keys_cons, List.append_nil, List.mem_cons] at hi
        show i < s.n + 1
        rcases hi with rfl | hi
        · omega
        · have := r.bound i (by simp [hi]); omega
      · rw [h7]; exact r.hfree
      · rw [h8]; show s.used + 1 = _; rw [r.hused]; simp
      · rw [h9]; exact r.hfc
      · rw [h4]; show s.n + 1 = _
        have := r.size; simp at this; simp; omega
    · simp [pushFrontLoc, hfc, h1, htail]
  | cons g f =>
    have hfc : s.freeCount ≠ 0 := by rw [r.hfc]; simp
    obtain ⟨⟨c, hc1, hc2⟩, hfs⟩ := r.fseg
    have hfree : s.free = some g := r.hfree
    have hnd := r.nodup
    have hg : g ∉ keys u := by
      intro h
      exact (List.nodup_append.mp hnd).2.2 g h g (by simp) rfl
    have hgf : g ∉ f := (List.nodup_cons.mp (List.nodup_append.mp hnd).2.1).1
    let s0 : St α := { wr { s with free := c.next, freeCount := s.freeCount - 1 } g
      ⟨s.head, none, t⟩ with head := some g }
    have hs0 : pushFrontFreeCell s t = some s0 := by
      simp [pushFrontFreeCell, hfree, rd_some, hc1, s0, wr]
    have hcell : ∀ j, j ≠ g → s0.cell j = s.cell j := fun j hj => by simp [s0, wr, hj]
    obtain ⟨s', h1, h2, h3, h4, h5, h6, h7, h8, h9⟩ :=
      updateHead_spec s0 u g t
        (seg_frame (m := s.cell) (fun j hj => hcell j (by rintro rfl; exact hg hj)) r.seg)
        (by simp [s0, wr, r.hhead]) hg hndu (by simp [s0, wr, r.htail]) rfl
    refine ⟨g, s', f, ?_, hg, ?_, ?_⟩
    · simp [pushFront, hfc, hs0, h1]
    · refine ⟨h2, ?_, ?_, ?_, by rw [h5]; simp, h6, ?_, ?_, ?_, ?_⟩
      · refine fseg_frame (fun j hj => ?_) hfs
        have hjg : j ≠ g := by rintro rfl; exact hgf hj
        rw [h3 j, hcell j hjg]
        intro hju
        exact (List.nodup_append.mp hnd).2.2 j hju j (by simp [hj]) rfl
      · simp only [keys_cons, List.cons_append, List.nodup_cons, List.mem_append, not_or]
        refine ⟨⟨hg, hgf⟩, ?_⟩
        have := List.nodup_append.mp hnd
        rw [List.nodup_append]
        exact ⟨this.1, (List.nodup_cons.mp this.2.1).2, fun a ha b hb => this.2.2 a ha b (by simp [hb])⟩
      · intro i hi
        rw [h4]
        refine r.bound i ?_
        simp only [keys_cons, List.cons_append, List.mem_cons, List.mem_append] at hi ⊢
        rcases hi with rfl | hi | hi <;> simp [*]
      · rw [h7]; show c.next = _; rw [hc2]
      · rw [h8]; show s.used + 1 = _; rw [r.hused]; simp
      · rw [h9]; show s.freeCount - 1 = _; rw [r.hfc]; simp
      · rw [h4]; show s.n = _; rw [r.size]; simp; omega
    · simp [pushFrontLoc, hfc, hs0, h1, hfree]

/-- Erasing the cell of an element. -/
theorem eraseCell_spec {s : St α} {a b : List (Nat × α)} {e : Nat × α} {f : List Nat}
    (r : Rep s (a ++ e :: b) f) :
    ∃ s', eraseCell s e.1 = some s' ∧ Rep s' (a ++ b) (e.1 :: f) ∧
      eraseNext s e.1 = some (hd b, s') := by
  have hseg := (seg_append _ _ _ _ _).mp r.seg
  simp only [hd_cons, Option.some_or, Option.or_none] at hseg
  obtain ⟨hsa, he, hsb⟩ := hseg
  simp only [Option.or_none] at he
  have hnd := r.nodup
  simp only [keys_append, keys_cons, List.append_assoc, List.cons_append] at hnd
  obtain ⟨hna, hnr, hdis⟩ := List.nodup_append.mp hnd
  obtain ⟨hne, hnbf⟩ := List.nodup_cons.mp hnr
  obtain ⟨hnb, hnf, hdbf⟩ := List.nodup_append.mp hnbf
  have hea : e.1 ∉ keys a := fun h => hdis _ h _ (by simp) rfl
  have heb : e.1 ∉ keys b := fun h => hne (by simp [h])
  have hef : e.1 ∉ f := fun h => hne (by simp [h])
  -- first step: bypass from the left
  have step1 : ∃ s1, bypassLeft s ⟨hd b, lst a, e.2⟩ = some s1 ∧
      Seg s1.cell none a (hd b) ∧ (∀ j, j ∉ keys a → s1.cell j = s.cell j) ∧
      s1.head = hd (a ++ b) ∧ s1.tail = s.tail ∧ s1.n = s.n ∧ s1.free = s.free ∧
      s1.used = s.used ∧ s1.freeCount = s.freeCount := by
    rcases List.eq_nil_or_concat a with rfl | ⟨a0, x, rfl⟩
    · exact ⟨{ s with head := hd b }, rfl, trivial, fun _ _ => rfl, rfl, rfl, rfl, rfl, rfl, rfl⟩
    · rw [List.concat_eq_append] at *
      have hx := (seg_append _ _ _ _ _).mp hsa
      simp only [hd_cons, Option.some_or, Seg, hd_nil, Option.none_or, and_true] at hx
      obtain ⟨hx1, hx2⟩ := hx
      refine ⟨wr s x.1 ⟨hd b, (lst a0).or none, x.2⟩, ?_, ?_, ?_, ?_, rfl, rfl, rfl, rfl, rfl⟩
      · simp [bypassLeft, rd_some, hx2]
      · rw [seg_append]
        simp only [hd_cons, Option.some_or, Seg, hd_nil, Option.none_or, and_true, cell_wr, if_true]
        refine seg_frame (fun j hj => ?_) hx1
        rw [cell_wr, if_neg]
        rintro rfl
        simp only [keys_append, keys_cons, keys_nil] at hna
        exact (List.nodup_append.mp hna).2.2 _ hj _ (by simp) rfl
      · intro j hj
        rw [cell_wr, if_neg]
        rintro rfl; exact hj (by simp)
      · show s.head = _
        rw [r.hhead]; cases a0 <;> simp
  obtain ⟨s1, e1, sa1, fr1, hd1, tl1, n1, fe1, us1, fc1⟩ := step1
  have he1 : s1.cell e.1 = some ⟨hd b, lst a, e.2⟩ := by rw [fr1 _ hea, he]
  have hsb1 : Seg s1.cell (some e.1) b none := by
    refine seg_frame (fun j hj => fr1 j (fun h => hdis _ h _ ?_ rfl)) hsb
    simp [hj]
  -- second step: bypass from the right
  have step2 : ∃ s2, bypassRight s1 ⟨hd b, lst a, e.2⟩ = some s2 ∧
      Seg s2.cell (lst a) b none ∧ (∀ j, j ∉ keys b → s2.cell j = s1.cell j) ∧
      s2.head = s1.head ∧ s2.tail = lst (a ++ b) ∧ s2.n = s1.n ∧ s2.free = s1.free ∧
      s2.used = s1.used ∧ s2.freeCount = s1.freeCount := by
    cases b with
    | nil =>
      exact ⟨{ s1 with tail := lst a }, rfl, trivial, fun _ _ => rfl, rfl, by simp, rfl, rfl, rfl,
        rfl⟩
    | cons y b =>
      obtain ⟨hy1, hy2⟩ := hsb1
      refine ⟨wr s1 y.1 ⟨(hd b).or none, lst a, y.2⟩, ?_, ?_, ?_, rfl, ?_, rfl, rfl, rfl, rfl⟩
      · simp [bypassRight, rd_some, hy1]
      · refine ⟨by rw [cell_wr, if_pos rfl], seg_frame (fun j hj => ?_) hy2⟩
        rw [cell_wr, if_neg]
        rintro rfl
        simp only [keys_cons, List.nodup_cons] at hnb
        exact hnb.1 hj
      · intro j hj
        rw [cell_wr, if_neg]
        rintro rfl; exact hj (by simp)
      · show s1.tail = _
        rw [tl1, r.htail, lst_append, lst_append, lst_cons, lst_cons]
        cases lst b <;> simp
  obtain ⟨s2, e2, sb2, fr2, hd2, tl2, n2, fe2, us2, fc2⟩ := step2
  have he2 : s2.cell e.1 = some ⟨hd b, lst a, e.2⟩ := by rw [fr2 _ heb, he1]
  have sa2 : Seg s2.cell none a (hd b) := by
    refine seg_frame (fun j hj => fr2 j (fun h => hdis _ hj _ ?_ rfl)) sa1
    simp [h]
  let s3 : St α := { wr s2 e.1 ⟨s2.free, lst a, e.2⟩ with
    free := some e.1, freeCount := s2.freeCount + 1, used := s2.used - 1 }
  have hres : eraseCell s e.1 = some s3 := by
    have c1 : rd s (some e.1) = some ⟨hd b, lst a, e.2⟩ := he
    have c2 : rd s1 (some e.1) = some ⟨hd b, lst a, e.2⟩ := he1
    have c3 : rd s2 (some e.1) = some ⟨hd b, lst a, e.2⟩ := he2
    simp [eraseCell, c1, e1, c2, e2, c3, s3, wr]
  have hc3 : ∀ j, j ≠ e.1 → s3.cell j = s2.cell j := fun j hj => by simp [s3, wr, hj]
  refine ⟨s3, hres, ?_, ?_⟩
  · refine ⟨?_, ?_, ?_, ?_, ?_, ?_, rfl, ?_, ?_, ?_⟩
    · rw [seg_append]
      simp only [Option.or_none]
      exact ⟨seg_frame (fun j hj => hc3 j (by rintro rfl; exact hea hj)) sa2,
        seg_frame (fun j hj => hc3 j (by rintro rfl; exact heb hj)) sb2⟩
    · refine ⟨⟨⟨s2.free, lst a, e.2⟩, by simp [s3, wr], ?_⟩, ?_⟩
      · show s2.free = _; rw [fe2, fe1, r.hfree]
      · refine fseg_frame (m := s.cell) (fun j hj => ?_) r.fseg
        rw [hc3 j (by rintro rfl; exact hef hj), fr2 j, fr1 j]
        · intro h; exact hdis _ h _ (by simp [hj]) rfl
        · intro h; exact hdbf _ h _ hj rfl
    · simp only [keys_append, List.append_assoc]
      rw [List.nodup_append]
      refine ⟨hna, ?_, ?_⟩
      · rw [List.nodup_append]
        refine ⟨hnb, List.nodup_cons.mpr ⟨hef, hnf⟩, ?_⟩
        intro x hx y hy
        simp only [List.mem_cons] at hy
        rcases hy with rfl | hy
        · rintro rfl; exact heb hx
        · exact hdbf x hx y hy
      · intro x hx y hy
        simp only [List.mem_append, List.mem_cons] at hy
        refine hdis x hx y ?_
        simp only [List.mem_cons, List.mem_append]
        rcases hy with h | h | h <;> simp [h]
    · intro i hi
      show i < s2.n
      rw [n2, n1]
      refine r.bound i ?_
      simp only [keys_append, keys_cons, List.mem_append, List.mem_cons] at hi ⊢
      rcases hi with (h | h) | h | h <;> simp [h]
    · show s2.head = _; rw [hd2, hd1]
    · show s2.tail = _; rw [tl2]
    · show s2.used - 1 = _; rw [us2, us1, r.hused]; simp
    · show s2.freeCount + 1 = _; rw [fc2, fc1, r.hfc]; simp
    · show s2.n = _; rw [n2, n1, r.size]; simp; omega
  · have c1 : rd s (some e.1) = some ⟨hd b, lst a, e.2⟩ := he
    simp [eraseNext, c1, hres]

theorem iterFrom_spec {s : St α} {u : List (Nat × α)} {p : Option Nat} {k : Nat}
    (h : Seg s.cell p u none) (hk : u.length ≤ k) : iterFrom s k (hd u) = some u := by
  induction u generalizing p k with
  | nil => cases k <;> rfl
  | cons e u ih =>
    obtain ⟨h1, h2⟩ := h
    cases k with
    | zero => simp at hk
    | succ k =>
      simp only [hd_cons, iterFrom, h1, Option.or_none]
      simp [ih h2 (by simpa using hk)]

theorem entries_spec {s : St α} {u : List (Nat × α)} {f : List Nat} (r : Rep s u f) :
    entries s = some u := by
  rw [entries, r.hhead]
  exact iterFrom_spec r.seg (by rw [r.size]; omega)

theorem split_nth {u : List (Nat × α)} {k : Nat} (h : k < u.length) :
    ∃ a e b, u = a ++ e :: b ∧ a.length = k := by
  refine ⟨u.take k, u[k], u.drop (k + 1), ?_, by simp; omega⟩
  rw [List.getElem_cons_drop, List.take_append_drop]

theorem eraseNthFrom_spec {s : St α} {p : Option Nat} (a : List (Nat × α)) {u : List (Nat × α)}
    {f : List Nat} (k : Nat) (r : Rep s (a ++ u) f) (hp : Seg s.cell p u none) :
    ∃ s' f', eraseNthFrom s k (hd u) = some s' ∧ Rep s' (a ++ u.eraseIdx k) f' := by
  induction u generalizing a p k with
  | nil => exact ⟨s, f, by cases k <;> rfl, by simpa using r⟩
  | cons e u ih =>
    cases k with
    | zero =>
      obtain ⟨s', h1, h2, _⟩ := eraseCell_spec r
      exact ⟨s', _, h1, by simpa using h2⟩
    | succ k =>
      obtain ⟨h1, h2⟩ := hp
      obtain ⟨s', f', h3, h4⟩ := ih (a ++ [e]) k (by simpa using r) h2
      refine ⟨s', f', ?_, by simpa using h4⟩
      simp only [hd_cons, eraseNthFrom, h1, Option.or_none]
      exact h3

/-- First occurrence removed. -/
def dropFirst [DecidableEq α] (t : α) : List (Nat × α) → List (Nat × α)
  | [] => []
  | e :: l => if e.2 = t then l else e :: dropFirst t l

theorem removeFrom_spec [DecidableEq α] {s : St α} {p : Option Nat} (a : List (Nat × α))
    {u : List (Nat × α)} {f : List Nat} (t : α) (k : Nat) (hk : u.length ≤ k)
    (r : Rep s (a ++ u) f) (hp : Seg s.cell p u none) :
    ∃ s' f', removeFrom s t k (hd u) = some s' ∧ Rep s' (a ++ dropFirst t u) f' := by
  induction u generalizing a p k with
  | nil => exact ⟨s, f, by cases k <;> rfl, by simpa [dropFirst] using r⟩
  | cons e u ih =>
    cases k with
    | zero => simp at hk
    | succ k =>
      obtain ⟨h1, h2⟩ := hp
      simp only [hd_cons, removeFrom, h1, Option.or_none]
      by_cases he : e.2 = t
      · obtain ⟨s', h1, h2, _⟩ := eraseCell_spec r
        exact ⟨s', _, by simp [he, h1], by simpa [dropFirst, he] using h2⟩
      · obtain ⟨s', f', h3, h4⟩ := ih (a ++ [e]) k (by simpa using hk) (by simpa using r) h2
        exact ⟨s', f', by simp [he, h3], by simpa [dropFirst, he] using h4⟩

/-! ### time_buffer walks -/

theorem seg_tail_of_rep {s : St α} {a u : List (Nat × α)} {f : List Nat} (r : Rep s (a ++ u) f) :
    Seg s.cell (lst a) u none := by
  have := ((seg_append _ _ _ _ _).mp r.seg).2
  simpa using this

theorem skipDead_spec {s : St α} (dead : α → Bool) (a u : List (Nat × α)) {f : List Nat} (k : Nat)
    (hk : u.length ≤ k) (r : Rep s (a ++ u) f) :
    ∃ s' f', skipDead dead k s (hd u) =
        some (hd (u.dropWhile (fun e => dead e.2)), s') ∧
      Rep s' (a ++ u.dropWhile (fun e => dead e.2)) f' := by
  induction u generalizing s f k with
  | nil => exact ⟨s, f, by cases k <;> rfl, by simpa using r⟩
  | cons e u ih =>
    cases k with
    | zero => simp at hk
    | succ k =>
      obtain ⟨h1, h2⟩ := seg_tail_of_rep r
      by_cases hd' : dead e.2 = true
      · obtain ⟨s1, e1, r1, e1'⟩ := eraseCell_spec r
        obtain ⟨s', f', e2, r2⟩ := ih k (by simpa using hk) r1
        refine ⟨s', f', ?_, ?_⟩
        · simp [skipDead, h1, hd', e1', e2]
        · simpa [hd'] using r2
      · refine ⟨s, f, ?_, ?_⟩
        · simp [skipDead, h1, hd']
        · simpa [hd'] using r

/-- The elements yielded by a walk and those remaining. -/
def survivors (dead : α → Bool) : List (Nat × α) → List (Nat × α)
  | [] => []
  | e :: u => e :: u.filter (fun x => !dead x.2)

theorem filter_dropWhile (dead : α → Bool) (u : List (Nat × α)) :
    survivors dead (u.dropWhile (fun e => dead e.2)) = u.filter (fun x => !dead x.2) := by
  induction u with
  | nil => rfl
  | cons e u ih =>
    by_cases h : dead e.2 = true
    · simp [h, ih]
    · simp [h, survivors]

theorem walk_spec {s : St α} (dead : α → Bool) (a u : List (Nat × α)) {f : List Nat} (k : Nat)
    (hk : u.length ≤ k) (r : Rep s (a ++ u) f) :
    ∃ s' f', walk dead k s (hd u) = some ((survivors dead u).map Prod.snd, s') ∧
      Rep s' (a ++ survivors dead u) f' := by
  induction k generalizing s f a u with
  | zero =>
    have : u = [] := List.length_eq_zero_iff.mp (by omega)
    subst this
    exact ⟨s, f, rfl, by simpa [survivors] using r⟩
  | succ k ih =>
    cases u with
    | nil => exact ⟨s, f, rfl, by simpa [survivors] using r⟩
    | cons e u =>
      obtain ⟨h1, h2⟩ := seg_tail_of_rep r
      obtain ⟨s1, f1, e1, r1⟩ := skipDead_spec dead (a ++ [e]) u k (by simpa using hk)
        (by simpa using r)
      obtain ⟨s2, f2, e2, r2⟩ := ih (a ++ [e]) (u.dropWhile (fun e => dead e.2))
        (Nat.le_trans (List.dropWhile_sublist _).length_le
          (by simpa using hk)) r1
      rw [filter_dropWhile] at e2 r2
      refine ⟨s2, f2, ?_, by simpa [survivors] using r2⟩
      simp [walk, h1, e1, e2, survivors]

end Verif.CellList
