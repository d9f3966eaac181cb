import Verif.Snapshot.Model
import Mathlib.Data.List.Nodup
import Mathlib.Tactic.SplitIfs
import Mathlib.Data.Finset.Card
/-!
# C74, C75: images made from memory
-/
namespace Verif.Snapshot

/-- What is loaded for an object: its references and views, with the objects the loaded ones stand for. -/
def Faithful (H : Heap) (st : St) : Prop :=
  ∀ (k o : Nat) (s : Sys), st.objs[k]? = some o → (image H st).1[k]? = some s →
    (unpack s).1.map (fun i => st.objs[i]?) = (visible (H o)).map some ∧
    (unpack s).2.map (fun v => (v.r0.map fun i => st.objs[i]?, v.r1.map fun i => st.objs[i]?)) =
      (H o).views.map fun v => (v.r0.map some, v.r1.map some)

/-- The object map: where in the code segment each object starts. -/
def Located (H : Heap) (st : St) : Prop :=
  ∀ k < st.objs.length, (image H st).2[k]? =
    some (((image H st).1.take k).map Sys.size).sum

/-- C74 in full. A heap in which references do not go round in circles (objects refer to objects made
before them) and models and composite states have their hidden reference; fewer than 65536 objects, of
fewer than 65536 words. -/
def C74_full : Prop :=
  ∀ (H : Heap) (incl : Bool) (l : List Nat) (rank : Nat → Nat),
    (∀ o, ∀ r ∈ (H o).refs, rank r < rank o) → (∀ o, (H o).hidden ≤ (H o).refs.length) →
    ∃ f st, addObjects H incl f l = some st ∧
      (st.objs.length < 65536 → st.off < 65536 →
      (∀ o ∈ l, incl = true ∨ (H o).inv = false → o ∈ st.objs) ∧ st.objs.Nodup ∧
      Faithful H st ∧ Located H st)

/-! ### Adding objects -/

def Closed (H : Heap) (incl : Bool) (objs : List Nat) : Prop :=
  ∀ x ∈ objs, ∀ r ∈ visible (H x), follows H incl r = true → r ∈ objs

/-- The object map in terms of the sizes of the objects when they were added. -/
def Mapped (H : Heap) (st : St) : Prop :=
  st.off = (st.objs.map fun o => firstSize (H o)).sum ∧ st.map.length = st.objs.length ∧
  ∀ k < st.objs.length, st.map[k]? =
    some (((st.objs.take k).map fun o => firstSize (H o)).sum % 65536)

/-- What adding an object of rank at most `n` does to the image. -/
structure Adds (H : Heap) (incl : Bool) (rank : Nat → Nat) (n : Nat) (st st' : St) : Prop where
  pre : ∃ l, st'.objs = st.objs ++ l ∧ ∀ x ∈ l, rank x < n
  nodup : st.objs.Nodup → st'.objs.Nodup
  closed : Closed H incl st.objs → Closed H incl st'.objs
  mapped : Mapped H st → Mapped H st'

theorem Adds.refl {H : Heap} {incl : Bool} {rank : Nat → Nat} {n : Nat} (st : St) :
    Adds H incl rank n st st :=
  ⟨⟨[], by simp, by simp⟩, id, id, id⟩

theorem Adds.trans {H : Heap} {incl : Bool} {rank : Nat → Nat} {n : Nat} {a b c : St}
    (h1 : Adds H incl rank n a b) (h2 : Adds H incl rank n b c) : Adds H incl rank n a c := by
  obtain ⟨l1, e1, r1⟩ := h1.pre
  obtain ⟨l2, e2, r2⟩ := h2.pre
  refine ⟨⟨l1 ++ l2, by rw [e2, e1, List.append_assoc], ?_⟩, h2.nodup ∘ h1.nodup,
    h2.closed ∘ h1.closed, h2.mapped ∘ h1.mapped⟩
  intro x hx
  rcases List.mem_append.1 hx with hx | hx
  · exact r1 x hx
  · exact r2 x hx

theorem Adds.mono {H : Heap} {incl : Bool} {rank : Nat → Nat} {n m : Nat} (hnm : n ≤ m) {a b : St}
    (h : Adds H incl rank n a b) : Adds H incl rank m a b := by
  obtain ⟨l, e, r⟩ := h.pre
  exact ⟨⟨l, e, fun x hx => Nat.lt_of_lt_of_le (r x hx) hnm⟩, h.nodup, h.closed, h.mapped⟩

theorem Adds.mem {H : Heap} {incl : Bool} {rank : Nat → Nat} {n : Nat} {a b : St}
    (h : Adds H incl rank n a b) {x : Nat} (hx : x ∈ a.objs) : x ∈ b.objs := by
  obtain ⟨l, e, _⟩ := h.pre
  rw [e]
  exact List.mem_append_left _ hx

theorem push_mapped (H : Heap) (st : St) (o : Nat) (h : Mapped H st) : Mapped H (st.push H o) := by
  obtain ⟨h1, h2, h3⟩ := h
  refine ⟨by simp [St.push, h1], by simp [St.push, h2], ?_⟩
  intro k hk
  simp only [St.push, List.length_append, List.length_singleton] at hk ⊢
  by_cases hlt : k < st.objs.length
  · rw [List.getElem?_append_left (by omega), h3 k hlt, List.take_append_of_le_length (by omega)]
  · have : k = st.objs.length := by omega
    subst this
    rw [List.getElem?_append_right (by omega), h2, Nat.sub_self, List.take_left, h1]
    rfl

/-- A loop over references, each of which adds objects below `n`. -/
theorem fold_adds {H : Heap} {incl : Bool} {rank : Nat → Nat} {n : Nat}
    (step : St → Nat → Option St) (g : Nat → Bool) (l : List Nat)
    (hs : ∀ r ∈ l, ∀ st st', step st r = some st' →
      Adds H incl rank n st st' ∧ (g r = true → r ∈ st'.objs))
    (st st' : St) (h : l.foldlM step st = some st') :
    Adds H incl rank n st st' ∧ ∀ r ∈ l, g r = true → r ∈ st'.objs := by
  induction l generalizing st with
  | nil =>
    simp only [List.foldlM_nil, Option.pure_def, Option.some.injEq] at h
    subst h
    exact ⟨Adds.refl st, by simp⟩
  | cons r l ih =>
    simp only [List.foldlM_cons, Option.bind_eq_bind, Option.bind_eq_some_iff] at h
    obtain ⟨st1, h1, h2⟩ := h
    obtain ⟨a1, m1⟩ := hs r (by simp) st st1 h1
    obtain ⟨a2, m2⟩ := ih (fun r' hr' => hs r' (by simp [hr'])) st1 h2
    refine ⟨a1.trans a2, ?_⟩
    intro r' hr' hg
    rcases List.mem_cons.1 hr' with rfl | hr'
    · exact a2.mem (m1 hg)
    · exact m2 r' hr' hg

theorem visible_mem {o : Obj} {r : Nat} (h : r ∈ visible o) : r ∈ o.refs := List.mem_of_mem_take h

theorem add_spec (H : Heap) (incl : Bool) (rank : Nat → Nat)
    (hr : ∀ o, ∀ r ∈ (H o).refs, rank r < rank o) (f : Nat) (st st' : St) (o : Nat)
    (h : addObject H incl f st o = some st') :
    Adds H incl rank (rank o + 1) st st' ∧ o ∈ st'.objs := by
  induction f generalizing st st' o with
  | zero => simp [addObject] at h
  | succ f ih =>
    simp only [addObject] at h
    split_ifs at h with h1 h2
    · simp only [Option.some.injEq] at h
      subst h
      exact ⟨Adds.refl st, h1⟩
    · rw [Option.map_eq_some_iff] at h
      obtain ⟨st1, h3, rfl⟩ := h
      obtain ⟨a, m⟩ := fold_adds (H := H) (incl := incl) (rank := rank) (n := rank o) _
        (follows H incl) (visible (H o)) (by
          intro r hm s s' hs
          by_cases hf : follows H incl r = true
          · rw [if_pos hf] at hs
            obtain ⟨a, b⟩ := ih s s' r hs
            exact ⟨a.mono (hr o r (visible_mem hm)), fun _ => b⟩
          · rw [if_neg hf, Option.some.injEq] at hs
            subst hs
            exact ⟨Adds.refl s, fun h => absurd h hf⟩) st st1 h3
      obtain ⟨l, e, hl⟩ := a.pre
      have hno : o ∉ st1.objs := by
        rw [e]
        intro hm
        rcases List.mem_append.1 hm with hm | hm
        · exact h1 hm
        · exact absurd (hl o hm) (Nat.lt_irrefl _)
      refine ⟨⟨⟨l ++ [o], by simp [St.push, e], ?_⟩, ?_, ?_, ?_⟩, by simp [St.push]⟩
      · intro x hx
        rcases List.mem_append.1 hx with hx | hx
        · exact Nat.lt_succ_of_lt (hl x hx)
        · rw [List.mem_singleton] at hx
          subst hx
          exact Nat.lt_succ_self _
      · intro hn
        simp only [St.push]
        rw [List.nodup_append]
        refine ⟨a.nodup hn, by simp, ?_⟩
        rintro x hx y hy rfl
        rw [List.mem_singleton] at hy
        subst hy
        exact hno hx
      · intro hc x hx r hrm hf
        simp only [St.push] at hx ⊢
        rcases List.mem_append.1 hx with hx | hx
        · exact List.mem_append_left _ (a.closed hc x hx r hrm hf)
        · rw [List.mem_singleton] at hx
          subst hx
          exact List.mem_append_left _ (m r hrm hf)
      · exact fun hm => push_mapped H st1 o (a.mapped hm)

theorem add_some (H : Heap) (incl : Bool) (rank : Nat → Nat)
    (hr : ∀ o, ∀ r ∈ (H o).refs, rank r < rank o) (hh : ∀ o, (H o).hidden ≤ (H o).refs.length)
    (f : Nat) (st : St) (o : Nat) (hf : rank o < f) : ∃ st', addObject H incl f st o = some st' := by
  induction f generalizing st o with
  | zero => omega
  | succ f ih =>
    simp only [addObject]
    split_ifs with h1 h2
    · exact ⟨st, rfl⟩
    · have := hh o; omega
    · have : ∀ (l : List Nat) (st : St), (∀ r ∈ l, r ∈ (H o).refs) →
          ∃ st', l.foldlM (fun st r => if follows H incl r = true then addObject H incl f st r
            else some st) st = some st' := by
        intro l
        induction l with
        | nil => exact fun st _ => ⟨st, rfl⟩
        | cons r l ihl =>
          intro st hl
          have : ∃ s, (if follows H incl r = true then addObject H incl f st r else some st) = some s := by
            split_ifs
            · exact ih st r (by have := hr o r (hl r (by simp)); omega)
            · exact ⟨st, rfl⟩
          obtain ⟨s, hs⟩ := this
          obtain ⟨s', hs'⟩ := ihl s fun r' hr' => hl r' (by simp [hr'])
          refine ⟨s', ?_⟩
          simp only [List.foldlM_cons, hs]
          exact hs'
      obtain ⟨s, hs⟩ := this (visible (H o)) st fun r hm => visible_mem hm
      exact ⟨s.push H o, by rw [hs]; rfl⟩

/-! ### Reading back -/

theorem index_get {objs : List Nat} {r i : Nat} (hlen : objs.length < 65536)
    (h : index objs r = some i) : objs[i]? = some r := by
  simp only [index] at h
  split_ifs at h with hm
  simp only [Option.some.injEq] at h
  have hlt := List.idxOf_lt_length_iff.2 hm
  rw [Nat.mod_eq_of_lt (by omega)] at h
  subst h
  rw [List.getElem?_eq_getElem hlt, List.getElem_idxOf hlt]

theorem index_mem {objs : List Nat} {r : Nat} (h : r ∈ objs) : ∃ i, index objs r = some i := by
  simp [index, h]

theorem refs_read {objs : List Nat} (hlen : objs.length < 65536) (l : List Nat)
    (h : ∀ r ∈ l, r ∈ objs) :
    (l.filterMap (index objs)).map (fun i => objs[i]?) = l.map some := by
  induction l with
  | nil => rfl
  | cons r l ih =>
    obtain ⟨i, hi⟩ := index_mem (h r (by simp))
    rw [List.filterMap_cons_some hi, List.map_cons, List.map_cons, index_get hlen hi,
      ih fun r' hr' => h r' (by simp [hr'])]

theorem view_read {objs : List Nat} (hlen : objs.length < 65536) (v : View)
    (h0 : v.r1 ≠ none → v.r0 ≠ none) (h1 : ∀ r ∈ v.r0, r ∈ objs) (h2 : ∀ r ∈ v.r1, r ∈ objs) :
    (((buildView objs v)[0]?).map (fun i => objs[i]?),
      ((buildView objs v)[1]?).map (fun i => objs[i]?)) = (v.r0.map some, v.r1.map some) ∧
    (buildView objs v).length = v.count := by
  obtain ⟨a, b⟩ := v
  cases a with
  | none =>
    cases b with
    | none => simp [buildView, buildViewRef, View.count]
    | some b => exact absurd rfl (h0 (by simp))
  | some a =>
    obtain ⟨i, hi⟩ := index_mem (h1 a (by simp))
    have gi := index_get hlen hi
    cases b with
    | none => simp [buildView, buildViewRef, View.count, hi, setGrow, gi]
    | some b =>
      obtain ⟨j, hj⟩ := index_mem (h2 b (by simp))
      have gj := index_get hlen hj
      simp [buildView, buildViewRef, View.count, hi, hj, setGrow, gi, gj]

/-- C74, the part that holds: every valid object with an identifier that is referred to is among the
objects to be saved (unless invalidated ones are included, when all references are followed), and so are
the groups of the views of saved objects; no view has an origin without a host. The object map is right if
there are no models and no composite states. -/
theorem C74_snapshot_partial (H : Heap) (incl : Bool) (l : List Nat) (rank : Nat → Nat)
    (hr : ∀ o, ∀ r ∈ (H o).refs, rank r < rank o) (hh : ∀ o, (H o).hidden ≤ (H o).refs.length)
    (hl : ∀ o, ∀ r ∈ (H o).refs, incl = false → (H r).oid = true → (H r).inv = false → r ∈ l) :
    ∃ f st, addObjects H incl f l = some st ∧
      (st.objs.length < 65536 →
      (∀ o ∈ l, incl = true ∨ (H o).inv = false → o ∈ st.objs) ∧ st.objs.Nodup ∧
      ((∀ o ∈ st.objs, ∀ v ∈ (H o).views, (v.r1 ≠ none → v.r0 ≠ none) ∧
        (∀ g ∈ v.r0, g ∈ st.objs) ∧ ∀ g ∈ v.r1, g ∈ st.objs) →
      Faithful H st ∧
      (st.off < 65536 → (∀ o ∈ st.objs, (H o).hidden = 0) → Located H st))) := by
  obtain ⟨f, hf⟩ : ∃ f, ∀ o ∈ l, rank o < f := by
    clear hl
    induction l with
    | nil => exact ⟨0, by simp⟩
    | cons o l ih =>
      obtain ⟨f, hf⟩ := ih
      refine ⟨max f (rank o + 1), ?_⟩
      intro x hx
      rcases List.mem_cons.1 hx with rfl | hx
      · exact lt_of_lt_of_le (Nat.lt_succ_self _) (le_max_right _ _)
      · exact lt_of_lt_of_le (hf x hx) (le_max_left _ _)
  have hsome : ∀ (l : List Nat) (st : St), (∀ o ∈ l, rank o < f) →
      ∃ st', l.foldlM (fun st o => if (incl || !(H o).inv) = true then addObject H incl f st o
        else some st) st = some st' := by
    intro l
    induction l with
    | nil => exact fun st _ => ⟨st, rfl⟩
    | cons o l ih =>
      intro st ho
      have : ∃ s, (if (incl || !(H o).inv) = true then addObject H incl f st o else some st) =
          some s := by
        split_ifs
        · exact add_some H incl rank hr hh f st o (ho o (by simp))
        · exact ⟨st, rfl⟩
      obtain ⟨s, hs⟩ := this
      obtain ⟨s', hs'⟩ := ih s fun r' hr' => ho r' (by simp [hr'])
      refine ⟨s', ?_⟩
      simp only [List.foldlM_cons, hs]
      exact hs'
  obtain ⟨st, hst⟩ := hsome l ⟨[], [], 0⟩ hf
  obtain ⟨a, m⟩ := fold_adds (H := H) (incl := incl) (rank := rank) (n := f) _
    (fun o => incl || !(H o).inv) l (by
      intro o ho s s' hs
      by_cases hg : (incl || !(H o).inv) = true
      · rw [if_pos hg] at hs
        obtain ⟨a, b⟩ := add_spec H incl rank hr f s s' o hs
        exact ⟨a.mono (hf o ho), fun _ => b⟩
      · rw [if_neg hg, Option.some.injEq] at hs
        subst hs
        exact ⟨Adds.refl s, fun h => absurd h hg⟩) ⟨[], [], 0⟩ st hst
  refine ⟨f, st, hst, fun hlen => ?_⟩
  have hcl := a.closed (by intro x hx; simp at hx)
  have hmap := a.mapped ⟨rfl, rfl, by simp⟩
  have hmem : ∀ o ∈ l, incl = true ∨ (H o).inv = false → o ∈ st.objs := by
    intro o ho hi
    apply m o ho
    rcases hi with hi | hi <;> simp [hi]
  have hrefs : ∀ o ∈ st.objs, ∀ r ∈ visible (H o), r ∈ st.objs := by
    intro o ho r hrv
    by_cases hfo : follows H incl r = true
    · exact hcl o ho r hrv hfo
    · simp only [follows, Bool.or_eq_true, Bool.not_eq_true', not_or, Bool.not_eq_true,
        Bool.not_eq_false] at hfo
      obtain ⟨⟨f1, f2⟩, f3⟩ := hfo
      exact hmem r (hl o r (visible_mem hrv) f1 f2 f3) (.inr f3)
  refine ⟨hmem, a.nodup (by simp), fun hv => ⟨?_, ?_⟩⟩
  · intro k o s hk hs
    simp only [image, List.getElem?_map, hk, Option.map_some, Option.some.injEq] at hs
    subst hs
    have ho : o ∈ st.objs := List.mem_of_getElem? hk
    refine ⟨refs_read hlen (visible (H o)) (hrefs o ho), ?_⟩
    simp only [unpack, build, List.map_map]
    apply List.map_congr_left
    intro v hvm
    obtain ⟨v1, v2, v3⟩ := hv o ho v hvm
    exact (view_read hlen v v1 v2 v3).1
  · intro hoff hhid k hk
    obtain ⟨m1, _, m3⟩ := hmap
    have hsize : ∀ o ∈ st.objs, firstSize (H o) = (build st.objs (H o)).size := by
      intro o ho
      have e1 : (build st.objs (H o)).refs.length = (H o).refs.length := by
        have := congrArg List.length (refs_read hlen (visible (H o)) (hrefs o ho))
        simp only [List.length_map] at this
        simp only [build, buildRefs, this]
        simp only [visible, hhid o ho, Nat.sub_zero, List.take_length]
      have e2 : ((H o).views.map fun v => 2 + 13 + v.count) =
          (build st.objs (H o)).views.map fun v => 2 + 13 + v.length := by
        simp only [build, List.map_map]
        apply List.map_congr_left
        intro v hvm
        obtain ⟨v1, v2, v3⟩ := hv o ho v hvm
        simp only [Function.comp]
        rw [(view_read hlen v v1 v2 v3).2]
      simp only [firstSize, Sys.size, e1, e2]
      rfl
    simp only [image]
    rw [m3 k hk, ← List.map_take, List.map_map]
    have e3 : ((st.objs.take k).map fun o => firstSize (H o)) =
        (st.objs.take k).map (Sys.size ∘ fun o => build st.objs (H o)) :=
      List.map_congr_left fun o ho => hsize o (List.mem_of_mem_take ho)
    have e4 : ((st.objs.take k).map fun o => firstSize (H o)).sum ≤ st.off := by
      have e5 : (st.objs.map fun o => firstSize (H o)) =
          ((st.objs.take k).map fun o => firstSize (H o)) ++
            (st.objs.drop k).map fun o => firstSize (H o) := by
        rw [← List.map_append, List.take_append_drop]
      rw [m1, e5, List.sum_append]
      exact Nat.le_add_right _ _
    rw [Nat.mod_eq_of_lt (by omega), e3]

/-! ### Witnesses -/

/-- An entity (0), a model (1) that refers to it and to a part of its own (3), the hidden part of the model
(2), a group (4), an object with a view in that group that came from a dead group (6): 5. -/
def heap : Heap
  | 0 => ⟨true, false, 4, [], 0, [⟨some 4, none⟩]⟩
  | 1 => ⟨true, false, 30, [0, 3, 2], 1, [⟨some 4, none⟩]⟩
  | 4 => ⟨true, false, 20, [], 0, []⟩
  | 5 => ⟨true, false, 7, [0, 3], 0, [⟨some 4, some 6⟩]⟩
  | 6 => ⟨true, true, 20, [], 0, []⟩
  | _ => ⟨false, false, 5, [], 0, []⟩

def heapRank : Nat → Nat
  | 1 => 2
  | 5 => 1
  | _ => 0

theorem heap_rank : ∀ o, ∀ r ∈ (heap o).refs, heapRank r < heapRank o
  | 0 => by decide
  | 1 => by decide
  | 2 => by decide
  | 3 => by decide
  | 4 => by decide
  | 5 => by decide
  | 6 => by decide
  | n + 7 => by simp [heap]

theorem heap_hidden : ∀ o, (heap o).hidden ≤ (heap o).refs.length
  | 0 => by decide
  | 1 => by decide
  | 2 => by decide
  | 3 => by decide
  | 4 => by decide
  | 5 => by decide
  | 6 => by decide
  | n + 7 => by simp [heap]

/-- More depth does not change the result. -/
theorem addObject_mono (H : Heap) (incl : Bool) (f : Nat) (st st' : St) (o : Nat)
    (h : addObject H incl f st o = some st') : addObject H incl (f + 1) st o = some st' := by
  induction f generalizing st st' o with
  | zero => simp [addObject] at h
  | succ f ih =>
    rw [addObject] at h ⊢
    split_ifs at h ⊢ with h1 h2
    · exact h
    · rw [Option.map_eq_some_iff] at h ⊢
      obtain ⟨s, hs, e⟩ := h
      refine ⟨s, ?_, e⟩
      clear e h1 h2
      generalize visible (H o) = l at hs
      induction l generalizing st with
      | nil => exact hs
      | cons r l ihl =>
        simp only [List.foldlM_cons, Option.bind_eq_bind, Option.bind_eq_some_iff] at hs ⊢
        obtain ⟨s1, h1, h2⟩ := hs
        refine ⟨s1, ?_, ihl s1 h2⟩
        split_ifs at h1 ⊢
        · exact ih st s1 r h1
        · exact h1

theorem addObjects_mono (H : Heap) (incl : Bool) (f d : Nat) (l : List Nat) (st : St)
    (h : addObjects H incl f l = some st) : addObjects H incl (f + d) l = some st := by
  induction d with
  | zero => exact h
  | succ d ih =>
    simp only [addObjects] at ih ⊢
    generalize (⟨[], [], 0⟩ : St) = s at ih
    induction l generalizing s with
    | nil => exact ih
    | cons o l ihl =>
      simp only [List.foldlM_cons, Option.bind_eq_bind, Option.bind_eq_some_iff] at ih ⊢
      obtain ⟨s1, h1, h2⟩ := ih
      refine ⟨s1, ?_, ?_⟩
      · split_ifs at h1 ⊢
        · exact addObject_mono H incl _ s s1 o h1
        · exact h1
      · clear ihl h
        revert h2
        generalize s1 = s1
        induction l generalizing s1 with
        | nil => exact id
        | cons o' l ihl' =>
          intro h2
          simp only [List.foldlM_cons, Option.bind_eq_bind, Option.bind_eq_some_iff] at h2 ⊢
          obtain ⟨s2, h3, h4⟩ := h2
          refine ⟨s2, ?_, ihl' s2 h4⟩
          split_ifs at h3 ⊢
          · exact addObject_mono H incl _ s1 s2 o' h3
          · exact h3

theorem addObjects_unique (H : Heap) (incl : Bool) (f g : Nat) (l : List Nat) (a b : St)
    (ha : addObjects H incl f l = some a) (hb : addObjects H incl g l = some b) : a = b := by
  have h1 := addObjects_mono H incl f g l a ha
  have h2 := addObjects_mono H incl g f l b hb
  rw [Nat.add_comm g f, h1] at h2
  exact Option.some.inj h2

/-- The file of the models alone: what the model refers to first is gone, its part takes the place. All
objects, without the invalidated: the origin of the view is now the first object in the file; the object
after the model is not where the object map says. A reference to itself: no end. -/
theorem C74_snapshot_violated :
    ¬ C74_full ∧
    (addObjects heap false 9 [1]).map (fun st => (st.objs, (image heap st).1.map fun s => s.refs)) =
      some ([3, 1], [[], [0]]) ∧
    (addObjects heap false 9 [0, 1, 4, 5]).map
        (fun st => (st.objs, (image heap st).1.map fun s => (unpack s).2)) =
      some ([0, 3, 1, 4, 5], [[⟨some 3, none⟩], [], [⟨some 3, none⟩], [], [⟨some 3, some 0⟩]]) ∧
    (addObjects heap false 9 [0, 1, 4, 5]).map
        (fun st => (st.map, (List.range 5).map fun k => (((image heap st).1.take k).map Sys.size).sum)) =
      some ([0, 25, 35, 89, 114], [0, 25, 35, 88, 113]) ∧
    ∀ f, addObjects (fun _ => ⟨true, false, 1, [0], 0, []⟩) true f [0] = none := by
  have w1 : (addObjects heap false 9 [1]).map
      (fun st => (st.objs, (image heap st).1.map fun s => s.refs)) = some ([3, 1], [[], [0]]) := by
    decide
  refine ⟨fun h => ?_, w1, by decide, by decide, ?_⟩
  · obtain ⟨f, st, hs, hf⟩ := h heap false [1] heapRank heap_rank heap_hidden
    rw [Option.map_eq_some_iff] at w1
    obtain ⟨st', hs', e⟩ := w1
    have : st = st' := addObjects_unique heap false f 9 [1] st st' hs hs'
    subst this
    have e1 : st.objs = [3, 1] := congrArg Prod.fst e
    have e2 : (image heap st).1.map (fun s => s.refs) = [[], [0]] := congrArg Prod.snd e
    have hoff : st.off < 65536 := by
      have h9 : (addObjects heap false 9 [1]).map (·.off) = some 64 := by decide
      rw [hs'] at h9
      simp only [Option.map_some, Option.some.injEq] at h9
      omega
    obtain ⟨_, _, hfa, _⟩ := hf (by rw [e1]; decide) hoff
    have e3 : (image heap st).1[1]? = some (build [3, 1] (heap 1)) := by
      simp [image, e1]
    obtain ⟨h1, _⟩ := hfa 1 1 _ (by rw [e1]; rfl) e3
    rw [e1] at h1
    revert h1
    decide
  · have key : ∀ f st, 0 ∉ st.objs →
        addObject (fun _ => ⟨true, false, 1, [0], 0, []⟩) true f st 0 = none := by
      intro f
      induction f with
      | zero => exact fun _ _ => rfl
      | succ f ih =>
        intro st h
        rw [addObject, if_neg h]
        simp [visible, follows, ih st h]
    intro f
    simp [addObjects, key f ⟨[], [], 0⟩ (by simp)]

/-- All objects but the dead group and what came from it: four objects saved, five in the file. -/
theorem C74_nonvacuous :
    (∀ o ∈ [0, 1, 4], (heap o).inv = false) ∧
    (addObjects heap false 9 [0, 1, 4]).map
        (fun st => (st.objs, (image heap st).1.map fun s => (unpack s).1)) =
      some ([0, 3, 1, 4], [[], [], [0, 1], []]) ∧
    (addObjects heap true 9 [5, 6, 4]).map
        (fun st => (st.objs, (image heap st).1.map unpack, decide (st.map =
          (List.range 5).map fun k => (((image heap st).1.take k).map Sys.size).sum))) =
      some ([0, 3, 5, 6, 4], [([], [⟨some 4, none⟩]), ([], []), ([0, 1], [⟨some 4, some 3⟩]), ([], []),
        ([], [])], true) := by
  decide

/-! ### C75: images for decompiling -/

/-- What an object refers to, by itself and by its views. -/
def succs (o : Obj) : List Nat := visible o ++ o.views.flatMap fun v => v.r0.toList ++ v.r1.toList

/-- C75: the image made for decompiling some objects holds them and everything they refer to, directly or
not, each once, and what is made of it refers to the same, circles or not. The objects that can be reached
are finitely many, fewer than 65536; a view with an origin has a host. -/
def C75 : Prop :=
  ∀ (H : Heap) (l U : List Nat), (∀ o ∈ l, o ∈ U) → (∀ o ∈ U, ∀ r ∈ succs (H o), r ∈ U) →
    U.length < 65536 → (∀ o ∈ U, (H o).hidden ≤ (H o).refs.length) →
    (∀ o ∈ U, ∀ v ∈ (H o).views, v.r1 ≠ none → v.r0 ≠ none) →
    ∃ f st, addAllObjects H f l = some st ∧ (∀ o ∈ l, o ∈ st.objs) ∧
      (∀ o ∈ st.objs, ∀ r ∈ succs (H o), r ∈ st.objs) ∧ st.objs.Nodup ∧ Faithful H st

/-- What `addAll` does to the image. -/
structure Grows (H : Heap) (U : List Nat) (st st' : St) : Prop where
  pre : ∃ l, st'.objs = st.objs ++ l ∧ (∀ x ∈ l, x ∈ U) ∧ ∀ x ∈ l, ∀ r ∈ succs (H x), r ∈ st'.objs
  nodup : st.objs.Nodup → st'.objs.Nodup

theorem Grows.refl {H : Heap} {U : List Nat} (st : St) : Grows H U st st :=
  ⟨⟨[], by simp, by simp, by simp⟩, id⟩

theorem Grows.mem {H : Heap} {U : List Nat} {a b : St} (h : Grows H U a b) {x : Nat}
    (hx : x ∈ a.objs) : x ∈ b.objs := by
  obtain ⟨l, e, _⟩ := h.pre
  rw [e]
  exact List.mem_append_left _ hx

theorem Grows.trans {H : Heap} {U : List Nat} {a b c : St} (h1 : Grows H U a b)
    (h2 : Grows H U b c) : Grows H U a c := by
  obtain ⟨l1, e1, u1, s1⟩ := h1.pre
  obtain ⟨l2, e2, u2, s2⟩ := h2.pre
  refine ⟨⟨l1 ++ l2, by rw [e2, e1, List.append_assoc], ?_, ?_⟩, h2.nodup ∘ h1.nodup⟩
  · intro x hx
    rcases List.mem_append.1 hx with hx | hx
    · exact u1 x hx
    · exact u2 x hx
  · intro x hx r hr
    rcases List.mem_append.1 hx with hx | hx
    · exact h2.mem (s1 x hx r hr)
    · exact s2 x hx r hr

theorem fold_grows {H : Heap} {U : List Nat} (step : St → Nat → Option St) (l : List Nat)
    (hs : ∀ r ∈ l, ∀ st st', step st r = some st' → Grows H U st st' ∧ r ∈ st'.objs)
    (st st' : St) (h : l.foldlM step st = some st') :
    Grows H U st st' ∧ ∀ r ∈ l, r ∈ st'.objs := by
  induction l generalizing st with
  | nil =>
    simp only [List.foldlM_nil, Option.pure_def, Option.some.injEq] at h
    subst h
    exact ⟨Grows.refl st, by simp⟩
  | cons r l ih =>
    simp only [List.foldlM_cons, Option.bind_eq_bind, Option.bind_eq_some_iff] at h
    obtain ⟨st1, h1, h2⟩ := h
    obtain ⟨a1, m1⟩ := hs r (by simp) st st1 h1
    obtain ⟨a2, m2⟩ := ih (fun r' hr' => hs r' (by simp [hr'])) st1 h2
    refine ⟨a1.trans a2, ?_⟩
    intro r' hr'
    rcases List.mem_cons.1 hr' with rfl | hr'
    · exact a2.mem m1
    · exact m2 r' hr'

theorem addAll_spec (H : Heap) (U : List Nat) (hU : ∀ o ∈ U, ∀ r ∈ succs (H o), r ∈ U) (f : Nat)
    (st st' : St) (o : Nat) (ho : o ∈ U) (h : addAll H f st o = some st') :
    Grows H U st st' ∧ o ∈ st'.objs := by
  induction f generalizing st st' o with
  | zero => simp [addAll] at h
  | succ f ih =>
    rw [addAll] at h
    split_ifs at h with h1 h2
    · simp only [Option.some.injEq] at h
      subst h
      exact ⟨Grows.refl st, h1⟩
    · obtain ⟨g, m⟩ := fold_grows (H := H) (U := U) _ (succs (H o))
        (fun r hr s s' hs => ih s s' r (hU o ho r hr) hs) (st.push H o) st' h
      obtain ⟨l, e, u, s⟩ := g.pre
      have e' : st'.objs = st.objs ++ (o :: l) := by rw [e]; simp [St.push]
      refine ⟨⟨⟨o :: l, e', ?_, ?_⟩, ?_⟩, by rw [e']; simp⟩
      · intro x hx
        rcases List.mem_cons.1 hx with rfl | hx
        · exact ho
        · exact u x hx
      · intro x hx r hr
        rcases List.mem_cons.1 hx with rfl | hx
        · exact m r hr
        · exact s x hx r hr
      · intro hn
        apply g.nodup
        simp only [St.push]
        rw [List.nodup_append]
        refine ⟨hn, by simp, ?_⟩
        rintro x hx y hy rfl
        rw [List.mem_singleton] at hy
        subst hy
        exact h1 hx

/-- The objects not yet in the image. -/
def left (U : List Nat) (st : St) : Nat := (U.filter fun x => decide (x ∉ st.objs)).length

theorem left_le {U : List Nat} {a b : St} (h : ∀ x ∈ a.objs, x ∈ b.objs) : left U b ≤ left U a := by
  unfold left
  induction U with
  | nil => simp
  | cons x U ih =>
    by_cases hb : x ∈ b.objs
    · rw [List.filter_cons_of_neg (by simpa using hb)]
      refine ih.trans ?_
      by_cases ha : x ∈ a.objs
      · rw [List.filter_cons_of_neg (by simpa using ha)]
      · rw [List.filter_cons_of_pos (by simpa using ha)]
        simp
    · have ha : x ∉ a.objs := fun ha => hb (h x ha)
      rw [List.filter_cons_of_pos (by simpa using hb), List.filter_cons_of_pos (by simpa using ha)]
      simpa using ih

theorem left_lt {H : Heap} {U : List Nat} {st : St} {o : Nat} (ho : o ∈ U) (h : o ∉ st.objs) :
    left U (st.push H o) < left U st := by
  unfold left
  induction U with
  | nil => simp at ho
  | cons x U ih =>
    have hmono : (U.filter fun x => decide (x ∉ (st.push H o).objs)).length ≤
        (U.filter fun x => decide (x ∉ st.objs)).length :=
      left_le (U := U) (a := st) (b := st.push H o) fun y hy => by simp [St.push, hy]
    by_cases hx : x = o
    · subst hx
      rw [List.filter_cons_of_neg (by simp [St.push]), List.filter_cons_of_pos (by simpa using h)]
      simp only [List.length_cons]
      omega
    · have ih := ih (by
        rcases List.mem_cons.1 ho with rfl | ho
        · exact absurd rfl hx
        · exact ho)
      by_cases hm : x ∈ st.objs
      · rw [List.filter_cons_of_neg (by simp [St.push, hm]),
          List.filter_cons_of_neg (by simpa using hm)]
        exact ih
      · rw [List.filter_cons_of_pos (by simp [St.push, hm, hx]),
          List.filter_cons_of_pos (by simpa using hm)]
        simp only [List.length_cons]
        omega

theorem addAll_some (H : Heap) (U : List Nat) (hU : ∀ o ∈ U, ∀ r ∈ succs (H o), r ∈ U)
    (hh : ∀ o ∈ U, (H o).hidden ≤ (H o).refs.length) (f : Nat) (st : St) (o : Nat) (ho : o ∈ U)
    (hf : left U st < f) : ∃ st', addAll H f st o = some st' := by
  induction f generalizing st o with
  | zero => omega
  | succ f ih =>
    rw [addAll]
    split_ifs with h1 h2
    · exact ⟨st, rfl⟩
    · have := hh o ho; omega
    · have hlt := left_lt (H := H) ho h1
      have : ∀ (l : List Nat) (s : St), left U s < f → (∀ r ∈ l, r ∈ U) →
          ∃ st', l.foldlM (fun st r => addAll H f st r) s = some st' := by
        intro l
        induction l with
        | nil => exact fun s _ _ => ⟨s, rfl⟩
        | cons r l ihl =>
          intro s hs hl
          obtain ⟨s1, h1⟩ := ih s r (hl r (by simp)) hs
          have hg := (addAll_spec H U hU f s s1 r (hl r (by simp)) h1).1
          obtain ⟨s2, h2⟩ := ihl s1 (lt_of_le_of_lt (left_le fun x hx => hg.mem hx) hs)
            fun r' hr' => hl r' (by simp [hr'])
          exact ⟨s2, by simp only [List.foldlM_cons, h1]; exact h2⟩
      exact this _ (st.push H o) (by omega) fun r hr => hU o ho r hr

theorem C75_image : C75 := by
  intro H l U hl hU hlen hh hv
  have hsome : ∀ (l : List Nat) (s : St), (∀ o ∈ l, o ∈ U) →
      ∃ st', l.foldlM (fun st o => addAll H (U.length + 1) st o) s = some st' := by
    intro l
    induction l with
    | nil => exact fun s _ => ⟨s, rfl⟩
    | cons o l ih =>
      intro s hl
      obtain ⟨s1, h1⟩ := addAll_some H U hU hh (U.length + 1) s o (hl o (by simp))
        (Nat.lt_succ_of_le (List.length_filter_le _ _))
      obtain ⟨s2, h2⟩ := ih s1 fun r' hr' => hl r' (by simp [hr'])
      exact ⟨s2, by simp only [List.foldlM_cons, h1]; exact h2⟩
  obtain ⟨st, hst⟩ := hsome l ⟨[], [], 0⟩ hl
  obtain ⟨g, m⟩ := fold_grows (H := H) (U := U) _ l
    (fun o ho s s' hs => addAll_spec H U hU _ s s' o (hl o ho) hs) ⟨[], [], 0⟩ st hst
  obtain ⟨l', e, u, s⟩ := g.pre
  rw [List.nil_append] at e
  rw [← e] at u s
  have hn := g.nodup (by simp)
  have hlen' : st.objs.length < 65536 :=
    lt_of_le_of_lt ((List.subperm_of_subset hn u).length_le) hlen
  refine ⟨U.length + 1, st, hst, m, s, hn, ?_⟩
  intro k o sy hk hs
  simp only [image, List.getElem?_map, hk, Option.map_some, Option.some.injEq] at hs
  subst hs
  have ho : o ∈ st.objs := List.mem_of_getElem? hk
  refine ⟨refs_read hlen' (visible (H o)) fun r hr => s o ho r (by simp [succs, hr]), ?_⟩
  simp only [unpack, build, List.map_map]
  apply List.map_congr_left
  intro v hvm
  refine (view_read hlen' v (hv o (u o ho) v hvm) ?_ ?_).1
  · intro r hr
    refine s o ho r ?_
    simp only [succs, List.mem_append, List.mem_flatMap]
    exact .inr ⟨v, hvm, .inl (by simpa using hr)⟩
  · intro r hr
    refine s o ho r ?_
    simp only [succs, List.mem_append, List.mem_flatMap]
    exact .inr ⟨v, hvm, .inr (by simpa using hr)⟩

/-- From one object with a view, through its references and groups; and round in a circle. -/
theorem C75_nonvacuous :
    (addAllObjects heap 9 [5]).map (fun st => (st.objs, (image heap st).1.map unpack)) =
      some ([5, 0, 4, 3, 6], [([1, 3], [⟨some 2, some 4⟩]), ([], [⟨some 2, none⟩]), ([], []), ([], []),
        ([], [])]) ∧
    (addAllObjects (fun n => ⟨true, false, 1, [1 - n], 0, []⟩) 9 [0]).map
        (fun st => (st.objs, (image (fun n => ⟨true, false, 1, [1 - n], 0, []⟩) st).1.map unpack)) =
      some ([0, 1], [([1], []), ([0], [])]) := by
  decide

end Verif.Snapshot
