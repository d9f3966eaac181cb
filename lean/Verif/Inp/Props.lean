import Verif.Inp.Spec
import Verif.Tpl.Props
/-!
# C162: the variables of a pattern
-/
namespace Verif.Inp
open Verif.Atom hiding Val
open Verif.Ctx
open Verif.Tpl (kind_iptr kind_struct kind_ipgm at_word word_stem at_stem final_stem words_stem object_stem go_stem den_stem wild_kind desc_div)

/-! ## Pointers -/

theorem desc_in (a k : Nat) : getDescriptor (ptr none a k) = 0x88 := by
  refine BitVec.eq_of_toNat_eq ?_
  have := inObj_toNat (BitVec.ofNat 8 a) (BitVec.ofNat 16 k)
  have h2 := (BitVec.ofNat 8 a).isLt
  rw [getDescriptor_toNat, ptr, this]
  show _ = 0x88
  omega

theorem desc_din (r a k : Nat) : getDescriptor (ptr (some r) a k) = 0x8C := by
  refine BitVec.eq_of_toNat_eq ?_
  have := dInObj_toNat (BitVec.ofNat 8 r) (BitVec.ofNat 16 k)
  have h2 := (BitVec.ofNat 8 r).isLt
  rw [getDescriptor_toNat, ptr, this]
  show _ = 0x8C
  omega

theorem desc_ptr (par : Option Nat) (a k : Nat) : getDescriptor (ptr par a k) = 0x88 ∨ getDescriptor (ptr par a k) = 0x8C := by
  cases par with
  | none => exact .inl (desc_in a k)
  | some r => exact .inr (desc_din r a k)

theorem input_in {a : Nat} (h : a < 256) (k : Nat) : (asInputIndex (ptr none a k)).toNat = a := by
  have := inObj_toNat (BitVec.ofNat 8 a) (BitVec.ofNat 16 k)
  rw [BitVec.toNat_ofNat, Nat.mod_eq_of_lt h] at this
  rw [asInputIndex_toNat, ptr, this]
  omega

theorem input_din {r : Nat} (h : r < 256) (a k : Nat) : (asInputIndex (ptr (some r) a k)).toNat = r := by
  have := dInObj_toNat (BitVec.ofNat 8 r) (BitVec.ofNat 16 k)
  rw [BitVec.toNat_ofNat, Nat.mod_eq_of_lt h] at this
  rw [asInputIndex_toNat, ptr, this]
  omega

theorem index_ptr (par : Option Nat) (a : Nat) {k : Nat} (h : k < 4096) : (asIndex (ptr par a k)).toNat = k := by
  have e : (BitVec.ofNat 16 k).toNat = k := by rw [BitVec.toNat_ofNat]; omega
  cases par with
  | none =>
    have := inObj_toNat (BitVec.ofNat 8 a) (BitVec.ofNat 16 k)
    rw [asIndex_toNat, ptr, this, e]; omega
  | some r =>
    have := dInObj_toNat (BitVec.ofNat 8 r) (BitVec.ofNat 16 k)
    rw [asIndex_toNat, ptr, this, e]; omega

theorem kind_in {a k : Nat} (ha : a < 256) (hk : k < 4096) : kind (ptr none a k) = .inobj a k := by
  unfold kind
  rw [desc_in, input_in ha, index_ptr none a hk]; rfl

theorem kind_din {r k : Nat} (a : Nat) (hr : r < 256) (hk : k < 4096) : kind (ptr (some r) a k) = .dinobj r k := by
  unfold kind
  rw [desc_din, input_din hr, index_ptr _ a hk]; rfl

/-- Pointers that have been written are not written again. -/
def Only (c c' : Code) : Prop := ∀ x w, c x = some w → getDescriptor w = 0x88 ∨ getDescriptor w = 0x8C → c' x = some w

theorem Only.rfl {c : Code} : Only c c := fun _ _ h _ => h

theorem Only.trans {a b c : Code} (h : Only a b) (k : Only b c) : Only a c := fun x w hx hd => k x w (h x w hx hd) hd

theorem only_put {c : Code} {i : Nat} {w x : Word} (h : c i = some w) (d : getDescriptor w ≠ 0x88 ∧ getDescriptor w ≠ 0x8C) : Only c (put c i x) := fun y u hy hu => by
  by_cases e : y = i
  · rw [e, h] at hy
    cases hy
    rcases hu with hu | hu
    · exact absurd hu d.1
    · exact absurd hu d.2
  · simp [put, e, hy]

/-- The parts of an object are reached, from the code `c`, by the place `par`. -/
inductive Ref (m : Mem) (c : Code) : Nat → Option Nat → Nat → Nat → Prop
  | root {a o} : m.inputs[a]? = some o → a < 256 → Ref m c 0 none a o
  | via {d r par a k o' y j o} : r < 256 → c r = some (ptr par a k) → k < 4096 → Ref m c d par a o' → (m.objs o').code k = some y → kind y = .rptr j →
      (m.objs o').refs[j]? = some o → Final m ⟨.obj o, 0⟩ → Ref m c (d + 1) (some r) a o

theorem Ref.only {m : Mem} {c c' : Code} (ho : Only c c') {d par a o} (h : Ref m c d par a o) : Ref m c' d par a o := by
  induction h with
  | root h1 h2 => exact .root h1 h2
  | via h1 h2 h3 _ h5 h6 h7 h8 ih => exact .via h1 (ho _ _ h2 (desc_ptr ..)) h3 ih h5 h6 h7 h8

theorem kindOf_rptr {d k a n j : Nat} (h : kindOf d k a n = .rptr j) : d = 0x85 ∧ k = j := by
  unfold kindOf at h
  repeat' (replace h := ite_split h; rcases h with ⟨_, h⟩ | ⟨_, h⟩)
  all_goals first
    | (exfalso; exact Kind.noConfusion h)
    | (cases h; exact ⟨by assumption, rfl⟩)

theorem kind_rptr {w : Word} {k : Nat} (h : kind w = .rptr k) : getDescriptor w = 0x85 ∧ (asIndex w).toNat = k := by
  obtain ⟨h1, h2⟩ := kindOf_rptr h
  exact ⟨BitVec.eq_of_toNat_eq h1, h2⟩

theorem derefIn_ref {m : Mem} {c : Code} {d par a o} (h : Ref m c d par a o) : ∀ {N : Nat}, d < N → ∀ k, derefIn m c N (ptr par a k) = some o := by
  induction h with
  | @root a o h1 h2 =>
    intro N hN k
    obtain ⟨n, rfl⟩ : ∃ n, N = n + 1 := ⟨N - 1, by omega⟩
    simp only [derefIn, desc_in, if_true, input_in h2, h1]
  | @via d r par a k' o' y j o h1 h2 h3 _ h5 h6 h7 _ ih =>
    intro N hN k
    obtain ⟨n, rfl⟩ : ∃ n, N = n + 1 := ⟨N - 1, by omega⟩
    simp only [derefIn, desc_din, if_true, input_din h1, h2, ih (by omega : d < n) k', index_ptr par a h3, h5, (kind_rptr h6).2, h7,
      show ¬ (0x8C : BitVec 8) = 0x88 by decide, if_false]

theorem go_ref {m : Mem} {c : Code} {d par a o} (h : Ref m c d par a o) : ∀ {i k : Nat} {x : Ctx}, c i = some (ptr par a k) → k < 4096 →
    Go { m with stem := c } ⟨.obj o, k⟩ [] x → Go { m with stem := c } ⟨.stem, i⟩ [] x := by
  induction h with
  | @root a o h1 h2 =>
    intro i k x hi hk hg
    exact .inobj (a := a) (k := k) (o := o) (by show Option.map kind (c i) = _; rw [hi, Option.map_some, kind_in h2 hk]) h1 hg
  | @via d r par a k' o' y j o h1 h2 h3 _ h5 h6 h7 h8 ih =>
    intro i k x hi hk hg
    have g := ih h2 h3 (x := ⟨.obj o, 0⟩) (.rptr (k := j) (by show Option.map kind ((m.objs o').code k') = _; rw [h5, Option.map_some, h6]) h7 (final_stem c rfl h8))
    exact .dinobj (r := r) (k := k) (by show Option.map kind (c i) = _; rw [hi, Option.map_some, kind_din a h1 hk]) g hg

theorem den_ref {m : Mem} {c : Code} {d par a o} (h : Ref m c d par a o) {i k : Nat} {v : Val} (hi : c i = some (ptr par a k)) (hk : k < 4096)
    (hv : Den m false ⟨.obj o, k⟩ v) : Den { m with stem := c } false ⟨.stem, i⟩ v := by
  cases den_stem c hv rfl with
  | atom h1 h2 h3 h4 => exact .atom (go_ref h hi hk h1) h2 h3 h4
  | raw h1 h2 h3 h4 h5 => exact .raw (go_ref h hi hk h1) h2 h3 h4 h5
  | node h1 h2 h3 h4 h5 => exact .node (go_ref h hi hk h1) h2 h3 h4 h5

/-! ## Skeletons -/

/-- The members of a structure of a skeleton: variables, constants, structures (their index, head and members); a tail
wildcard is the last. -/
inductive Tree
  | nil
  | tail (w : Word)
  | var (w : Word) (ms : Tree)
  | const (w : Word) (v : Val) (ms : Tree)
  | sub (w : Word) (p : Nat) (h : Word) (ks ms : Tree)

namespace Tree

def size : Tree → Nat
  | nil => 0
  | tail _ => 1
  | var _ ms => ms.size + 1
  | const _ _ ms => ms.size + 1
  | sub _ _ _ _ ms => ms.size + 1

def depth : Tree → Nat
  | nil => 0
  | tail _ => 0
  | var _ ms => ms.depth
  | const _ _ ms => ms.depth
  | sub _ _ _ ks ms => max (ks.depth + 1) ms.depth

/-- The values of the members, from the index `i` on. -/
def val : Nat → Tree → Val
  | _, nil => .nil
  | i, tail w => .cons (.atom ⟨.stem, i⟩ w) .nil
  | i, var w ms => .cons (.atom ⟨.stem, i⟩ w) (val (i + 1) ms)
  | i, const _ v ms => .cons v (val (i + 1) ms)
  | i, sub _ p h ks ms => .cons (.node none h (val (p + 1) ks)) (val (i + 1) ms)

/-- The indices used. -/
def cells : Nat → Tree → List Nat
  | _, nil => []
  | i, tail _ => [i]
  | i, var _ ms => i :: cells (i + 1) ms
  | i, const _ _ ms => i :: cells (i + 1) ms
  | i, sub _ p _ ks ms => i :: p :: (cells (p + 1) ks ++ cells (i + 1) ms)

/-- The code has the members from the index `i` on. -/
def Laid (c : Code) : Nat → Tree → Prop
  | _, nil => True
  | i, tail w => c i = some w ∧ getDescriptor w = 0x83
  | i, var w ms => c i = some w ∧ getDescriptor w = 0x82 ∧ Laid c (i + 1) ms
  | i, const w _ ms => c i = some w ∧ getDescriptor w ≠ 0x82 ∧ getDescriptor w ≠ 0x83 ∧ getDescriptor w ≠ 0x84 ∧ Laid c (i + 1) ms
  | i, sub w p h ks ms => c i = some w ∧ kind w = .iptr p ∧ c p = some h ∧ kind h = .struct ks.size ∧ Laid c (p + 1) ks ∧ Laid c (i + 1) ms

/-- The constants have their values, in which there are no variables. -/
def Means (m : Mem) : Nat → Tree → Prop
  | _, nil => True
  | _, tail _ => True
  | i, var _ ms => Means m (i + 1) ms
  | i, const _ v ms => Den m false ⟨.stem, i⟩ v ∧ (∀ w, holes v w = []) ∧ Means m (i + 1) ms
  | i, sub _ p _ ks ms => Means m (p + 1) ks ∧ Means m (i + 1) ms

/-- Where the skeleton has a structure, the object `o` (from the index `k` on) has a pointer to a structure or a reference, the
latter only beside one of the first 256 words of the program. -/
def Held (m : Mem) : Nat → Nat → Nat → Tree → Prop
  | _, _, _, nil => True
  | _, _, _, tail _ => True
  | i, o, k, var _ ms => k < 4096 ∧ Held m (i + 1) o (k + 1) ms
  | i, o, k, const _ _ ms => Held m (i + 1) o (k + 1) ms
  | i, o, k, sub _ p _ ks ms => k < 4096 ∧
    ((∃ e, m.at ⟨.obj o, k⟩ = some (.iptr e) ∧ Final m ⟨.obj o, e⟩ ∧ Held m (p + 1) o (e + 1) ks) ∨
      (i < 256 ∧ ∃ r o', m.at ⟨.obj o, k⟩ = some (.rptr r) ∧ (m.objs o).refs[r]? = some o' ∧ Held m (p + 1) o' 1 ks)) ∧
    Held m (i + 1) o (k + 1) ms

/-- The variables and what they were matched with. -/
def vars : Nat → Tree → Val → List (Nat × Val)
  | i, var _ ms, .cons v vs => (i, v) :: vars (i + 1) ms vs
  | i, const _ _ ms, .cons _ vs => vars (i + 1) ms vs
  | i, sub _ p _ ks ms, .cons (.node _ _ ls) vs => vars (p + 1) ks ls ++ vars (i + 1) ms vs
  | _, _, _ => []

end Tree

open Tree

theorem laid_congr {c c' : Code} : ∀ (t : Tree) (i : Nat), (∀ x ∈ cells i t, c' x = c x) → Laid c i t → Laid c' i t
  | .nil, _, _, _ => trivial
  | .tail w, i, h, l => ⟨(h i (by simp [cells])).trans l.1, l.2⟩
  | .var w ms, i, h, l => ⟨(h i (by simp [cells])).trans l.1, l.2.1, laid_congr ms (i + 1) (fun x hx => h x (by simp [cells, hx])) l.2.2⟩
  | .const w v ms, i, h, l =>
    ⟨(h i (by simp [cells])).trans l.1, l.2.1, l.2.2.1, l.2.2.2.1, laid_congr ms (i + 1) (fun x hx => h x (by simp [cells, hx])) l.2.2.2.2⟩
  | .sub w p g ks ms, i, h, l =>
    ⟨(h i (by simp [cells])).trans l.1, l.2.1, (h p (by simp [cells])).trans l.2.2.1, l.2.2.2.1,
      laid_congr ks (p + 1) (fun x hx => h x (by simp [cells, hx])) l.2.2.2.2.1, laid_congr ms (i + 1) (fun x hx => h x (by simp [cells, hx])) l.2.2.2.2.2⟩

/-- A skeleton has its value. -/
theorem val_den {m : Mem} : ∀ (t : Tree) (i : Nat), Laid m.stem i t → Means m i t → Den m true ⟨.stem, i⟩ (val i t) ∧ (val i t).length = t.size
  | .nil, _, _, _ => ⟨.nil, rfl⟩
  | .tail w, i, l, _ => by
    have hk : kind w = .wild := by
      unfold kind
      have : (getDescriptor w).toNat = 0x83 := by rw [l.2]; rfl
      rw [this]; rfl
    exact ⟨.cons (.atom (.here ⟨.wild, by show Option.map kind (m.stem i) = _; rw [l.1, Option.map_some, hk], rfl⟩) l.1 (.inr hk) rfl) .nil, rfl⟩
  | .var w ms, i, l, h => by
    have hk := wild_kind l.2.1
    obtain ⟨h1, h2⟩ := val_den ms (i + 1) l.2.2 h
    exact ⟨.cons (.atom (.here ⟨.wild, by show Option.map kind (m.stem i) = _; rw [l.1, Option.map_some, hk], rfl⟩) l.1 (.inr hk) rfl) h1,
      by simp only [val, Val.length, size, h2]⟩
  | .const w v ms, i, l, h => by
    obtain ⟨h1, h2⟩ := val_den ms (i + 1) l.2.2.2.2 h.2.2
    exact ⟨.cons h.1 h1, by simp only [val, Val.length, size, h2]⟩
  | .sub w p g ks ms, i, l, h => by
    obtain ⟨h1, h2⟩ := val_den ms (i + 1) l.2.2.2.2.2 h.2
    obtain ⟨k1, k2⟩ := val_den ks (p + 1) l.2.2.2.2.1 h.1
    refine ⟨.cons (.node (d := ⟨.stem, p⟩) (n := ks.size) (.iptr (k := p) ?_ (.here ⟨.struct ks.size, ?_, rfl⟩)) l.2.2.1 l.2.2.2.1 k1 k2) h1, by simp only [val, Val.length, size, h2]⟩
    · show Option.map kind (m.stem i) = _; rw [l.1, Option.map_some, l.2.1]
    · show Option.map kind (m.stem p) = _; rw [l.2.2.1, Option.map_some, l.2.2.2.1]

theorem hole_wild {w : Word} (h : getDescriptor w = 0x82 ∨ getDescriptor w = 0x83) : hole w = true := by
  unfold hole
  rcases h with h | h
  · rw [(desc_div w 0x82 (by omega)).mpr h]; rfl
  · rw [(desc_div w 0x83 (by omega)).mpr h]; rfl

/-- The variables are the places of the skeleton where there is a wildcard. -/
theorem holes_vars {m : Mem} : ∀ (t : Tree) (i : Nat) (ws : Val), Laid m.stem i t → Means m i t → inst (val i t) ws = true → ∀ h ∈ holes (val i t) ws,
    (∃ u, m.word h.1 = some u ∧ u.toNat / 2 ^ 24 = 0x82) → ∃ x, h.1 = ⟨.stem, x⟩ ∧ (x, h.2) ∈ vars i t ws
  | .nil, _, ws, _, _, _, h, hh, _ => by cases ws <;> simp [val, holes] at hh
  | .tail w, i, ws, l, _, _, h, hh, ⟨u, u1, u2⟩ => by
    cases ws with
    | cons v vs =>
      simp only [val, holes, hole_wild (.inr l.2), if_true, List.mem_append, List.mem_singleton] at hh
      rcases hh with rfl | hh
      · have : m.stem i = some u := u1
        rw [l.1] at this
        cases this
        have := (desc_div w 0x82 (by omega)).mp u2
        rw [l.2] at this
        exact absurd this (by decide)
      · cases vs <;> simp [holes] at hh
    | _ => simp [val, holes] at hh
  | .var w ms, i, ws, l, k, hi, h, hh, hu => by
    cases ws with
    | cons v vs =>
      simp only [val, inst, Bool.and_eq_true] at hi
      simp only [val, holes, hole_wild (.inl l.2.1), if_true, List.mem_append, List.mem_singleton] at hh
      rcases hh with rfl | hh
      · exact ⟨i, rfl, by simp [vars]⟩
      · obtain ⟨x, x1, x2⟩ := holes_vars ms (i + 1) vs l.2.2 k hi.2 h hh hu
        exact ⟨x, x1, by simp [vars, x2]⟩
    | _ => simp [val, holes] at hh
  | .const w v ms, i, ws, l, k, hi, h, hh, hu => by
    cases ws with
    | cons v' vs =>
      simp only [val, inst, Bool.and_eq_true] at hi
      simp only [val, holes, k.2.1 v', List.nil_append] at hh
      obtain ⟨x, x1, x2⟩ := holes_vars ms (i + 1) vs l.2.2.2.2 k.2.2 hi.2 h hh hu
      exact ⟨x, x1, by simp [vars, x2]⟩
    | _ => simp [val, holes] at hh
  | .sub w p g ks ms, i, ws, l, k, hi, h, hh, hu => by
    cases ws with
    | cons v vs =>
      simp only [val, inst, Bool.and_eq_true] at hi
      simp only [val, holes, List.mem_append] at hh
      cases v with
      | node id g' ls =>
        have hj : inst (val (p + 1) ks) ls = true := by
          have := hi.1
          simp only [inst, Option.isSome_none, Bool.false_and, Bool.false_eq_true, if_false, Bool.and_eq_true] at this
          exact this.2
        simp only [holes] at hh
        rcases hh with hh | hh
        · obtain ⟨x, x1, x2⟩ := holes_vars ks (p + 1) ls l.2.2.2.2.1 k.1 hj h hh hu
          exact ⟨x, x1, by simp [vars, x2]⟩
        · obtain ⟨x, x1, x2⟩ := holes_vars ms (i + 1) vs l.2.2.2.2.2 k.2 hi.2 h hh hu
          exact ⟨x, x1, by simp [vars, x2]⟩
      | _ => simp [inst] at hi
    | _ => simp [val, holes] at hh

/-! ## What is patched -/

theorem go_iptr {m : Mem} {c d : Ctx} {k : Nat} (h : Go m c [] d) (hk : m.at c = some (.iptr k)) : Go m ⟨c.sp, k⟩ [] d := by
  cases h with
  | iptr h1 h2 => rw [hk] at h1; cases h1; exact h2
  | here h => obtain ⟨x, h1, h2⟩ := h; rw [hk] at h1; cases h1; cases h2
  | _ => simp_all

/-- The place stands for the value. -/
def Stands (m : Mem) (c : Code) (a i : Nat) (v : Val) : Prop :=
  ∃ d par o k, c i = some (ptr par a k) ∧ k < 4096 ∧ Ref m c d par a o ∧ Den m false ⟨.obj o, k⟩ v

theorem Stands.only {m : Mem} {c c' : Code} (ho : Only c c') {a i v} (h : Stands m c a i v) : Stands m c' a i v := by
  obtain ⟨d, par, o, k, h1, h2, h3, h4⟩ := h
  exact ⟨d, par, o, k, ho _ _ h1 (desc_ptr ..), h2, h3.only ho, h4⟩

theorem wild_not {w : Word} {d : BitVec 8} (h : getDescriptor w = d) (h1 : d ≠ 0x88) (h2 : d ≠ 0x8C) : getDescriptor w ≠ 0x88 ∧ getDescriptor w ≠ 0x8C := by
  rw [h]; exact ⟨h1, h2⟩

theorem struct_not {w : Word} {n : Nat} (h : kind w = .struct n) : getDescriptor w ≠ 0x88 ∧ getDescriptor w ≠ 0x8C := by
  refine ⟨fun e => ?_, fun e => ?_⟩
  · unfold kind at h; rw [e] at h; cases h
  · unfold kind at h; rw [e] at h; cases h

theorem not_at {x i : Nat} {l : List Nat} (h : i ∉ l) (hx : x ∈ l) : x ≠ i := fun e => h (e ▸ hx)

theorem put_ne {c : Code} {i x : Nat} {w : Word} (h : x ≠ i) : put c i w x = c x := if_neg h
theorem put_eq {c : Code} {i : Nat} {w : Word} : put c i w i = some w := if_pos rfl

/-- What patching a structure does, given what the loop over its members does. -/
structure Done (m : Mem) (a : Nat) (c c' : Code) (cells : List Nat) (vars : List (Nat × Val)) : Prop where
  only : Only c c'
  frame : ∀ x, x ∉ cells → c' x = c x
  vars : ∀ h ∈ vars, Stands m c' a h.1 h.2

theorem members_spec {m : Mem} {N a : Nat} : ∀ (t : Tree) {n d p q j o : Nat} {par : Option Nat} {c : Code} {ws : Val}, Laid c (p + j) t → (cells (p + j) t).Nodup →
    Ref m c d par a o → d + t.depth < N → t.depth ≤ n → Held m (p + j) o (q + j) t → Den m true ⟨.obj o, q + j⟩ ws → inst (val (p + j) t) ws = true →
    ∃ c', members m N (patchIn m N a n) (ptr par a q) p a q par j t.size c = some c' ∧ Done m a c c' (cells (p + j) t) (vars (p + j) t ws)
  | .nil, n, d, p, q, j, o, par, c, ws, _, _, _, _, _, _, _, _ => ⟨c, rfl, Only.rfl, fun _ _ => rfl, fun h hh => by cases ws <;> simp [vars] at hh⟩
  | .tail w, n, d, p, q, j, o, par, c, ws, l, _, _, _, _, _, _, _ => by
    refine ⟨c, ?_, Only.rfl, fun _ _ => rfl, fun h hh => by cases ws <;> simp [vars] at hh⟩
    simp only [size, members, l.1, l.2, if_true]
  | .var w ms, n, d, p, q, j, o, par, c, ws, l, hn, hr, hN, hd, hh, hden, hi => by
    cases hden with
    | nil => simp [val, inst] at hi
    | @cons _ v vs h1 h2 =>
      simp only [val, inst, Bool.and_eq_true] at hi
      simp only [cells, List.nodup_cons] at hn
      have ho : Only c (put c (p + j) (ptr par a (q + j))) := only_put l.1 (wild_not l.2.1 (by decide) (by decide))
      obtain ⟨c', e, dn⟩ := members_spec (m := m) (N := N) (a := a) ms (n := n) (d := d) (p := p) (q := q) (j := j + 1) (o := o) (par := par) (c := put c (p + j) (ptr par a (q + j))) (ws := vs)
        (laid_congr ms _ (fun x hx => put_ne (not_at hn.1 hx)) l.2.2) hn.2 (hr.only ho) hN hd hh.2 h2 hi.2
      refine ⟨c', ?_, ho.trans dn.only, fun x hx => ?_, fun h hm => ?_⟩
      · simp only [size, members, l.1, l.2.1, show ¬ (0x82 : BitVec 8) = 0x83 by decide, if_false, if_true]
        exact e
      · simp only [cells, List.mem_cons, not_or] at hx
        rw [dn.frame x hx.2, put_ne hx.1]
      · simp only [vars, List.mem_cons] at hm
        rcases hm with rfl | hm
        · exact ⟨d, par, o, q + j, dn.only _ _ put_eq (desc_ptr ..), hh.1, (hr.only ho).only dn.only, h1⟩
        · exact dn.vars h hm
  | .const w u ms, n, d, p, q, j, o, par, c, ws, l, hn, hr, hN, hd, hh, hden, hi => by
    cases hden with
    | nil => simp [val, inst] at hi
    | @cons _ v vs h1 h2 =>
      simp only [val, inst, Bool.and_eq_true] at hi
      simp only [cells, List.nodup_cons] at hn
      obtain ⟨c', e, dn⟩ := members_spec (m := m) (N := N) (a := a) ms (n := n) (d := d) (p := p) (q := q) (j := j + 1) (o := o) (par := par) (c := c) (ws := vs)
        l.2.2.2.2 hn.2 hr hN hd hh h2 hi.2
      refine ⟨c', ?_, dn.only, fun x hx => ?_, fun h hm => ?_⟩
      · simp only [size, members, l.1, l.2.1, l.2.2.1, l.2.2.2.1, if_false]
        exact e
      · simp only [cells, List.mem_cons, not_or] at hx
        exact dn.frame x hx.2
      · exact dn.vars h hm
  | .sub w s g ks ms, n, d, p, q, j, o, par, c, ws, l, hn, hr, hN, hd, hh, hden, hi => by
    cases hden with
    | nil => simp [val, inst] at hi
    | @cons _ v vs h1 h2 =>
      simp only [val, inst, Bool.and_eq_true] at hi
      simp only [cells, List.nodup_cons, List.mem_cons, List.mem_append, not_or, List.nodup_append] at hn
      obtain ⟨⟨n1, n2, n3⟩, ⟨n4, n5⟩, n6, n7, n8⟩ := hn
      obtain ⟨l1, l2, l3, l4, l5, l6⟩ := l
      simp only [depth] at hN hd
      obtain ⟨n', rfl⟩ : ∃ n', n = n' + 1 := ⟨n - 1, by omega⟩
      -- the pointer is replaced
      have ho1 : Only c (put c (p + j) (ptr par a (q + j))) := only_put l1 (wild_not (kind_iptr l2).1 (by decide) (by decide))
      have hr1 := hr.only ho1
      have hs : put c (p + j) (ptr par a (q + j)) s = some g := by rw [put_ne (Ne.symm n1)]; exact l3
      -- the structure
      have step : ∀ (d2 e2 o2 : Nat) (par2 : Option Nat) (ls : Val), d2 + ks.depth < N →
          (Ref m (put c (p + j) (ptr par a (q + j))) d2 par2 a o2) → Held m (s + 1) o2 (e2 + 1) ks → Den m true ⟨.obj o2, e2 + 1⟩ ls →
          inst (val (s + 1) ks) ls = true → ∃ c', patchIn m N a (n' + 1) (put c (p + j) (ptr par a (q + j))) s e2 par2 = some c' ∧
            Done m a (put c (p + j) (ptr par a (q + j))) c' (s :: cells (s + 1) ks) (vars (s + 1) ks ls) := by
        intro d2 e2 o2 par2 ls k0 k1 k2 k3 k4
        have ho2 : Only (put c (p + j) (ptr par a (q + j))) (put (put c (p + j) (ptr par a (q + j))) s (ptr par2 a e2)) := only_put hs (struct_not l4)
        obtain ⟨c', e, dn⟩ := members_spec (m := m) (N := N) (a := a) ks (n := n') (d := d2) (p := s) (q := e2) (j := 1) (o := o2) (par := par2)
          (c := put (put c (p + j) (ptr par a (q + j))) s (ptr par2 a e2)) (ws := ls)
          (laid_congr ks _ (fun x hx => by rw [put_ne (not_at n4 hx), put_ne (not_at n2 hx)]) l5) n6 (k1.only ho2) k0 (by omega) k2 k3 k4
        refine ⟨c', ?_, ho2.trans dn.only, fun x hx => ?_, dn.vars⟩
        · simp only [patchIn, hs, kind_struct l4]
          exact e
        · simp only [List.mem_cons, not_or] at hx
          rw [dn.frame x hx.2, put_ne hx.1]
      -- the members after it
      have rest : ∀ (c2 : Code) (vs' : List (Nat × Val)), Done m a (put c (p + j) (ptr par a (q + j))) c2 (s :: cells (s + 1) ks) vs' →
          ∃ c', members m N (patchIn m N a (n' + 1)) (ptr par a q) p a q par (j + 1) ms.size c2 = some c' ∧
            Done m a c c' (cells (p + j) (.sub w s g ks ms)) (vs' ++ vars (p + (j + 1)) ms vs) := by
        intro c2 vs' dn2
        obtain ⟨c', e, dn⟩ := members_spec (m := m) (N := N) (a := a) ms (n := n' + 1) (d := d) (p := p) (q := q) (j := j + 1) (o := o) (par := par) (c := c2) (ws := vs)
          (laid_congr ms _ (fun x hx => by
            rw [dn2.frame x (by
              simp only [List.mem_cons, not_or]
              exact ⟨not_at n5 hx, fun hk => n8 x hk x hx rfl⟩), put_ne (not_at n3 hx)]) l6) n7 (hr1.only dn2.only) (by omega) (by omega) hh.2.2 h2 hi.2
        refine ⟨c', e, (ho1.trans dn2.only).trans dn.only, fun x hx => ?_, fun h hm => ?_⟩
        · simp only [cells, List.mem_cons, List.mem_append, not_or] at hx
          rw [dn.frame x hx.2.2.2, dn2.frame x (by simp only [List.mem_cons, not_or]; exact ⟨hx.2.1, hx.2.2.1⟩), put_ne hx.1]
        · rcases List.mem_append.mp hm with hm | hm
          · exact (dn2.vars h hm).only dn.only
          · exact dn.vars h hm
      have hb : beside m N (put c (p + j) (ptr par a (q + j))) (ptr par a q) (q + j) = (m.objs o).code (q + j) := by
        simp only [beside, derefIn_ref hr1 (by omega : d < N) q]
      cases h1 with
      | atom => simp [inst] at hi
      | raw => simp [inst] at hi
      | @node _ x h' k' ls g1 g2 g3 g4 g5 =>
        have hj : inst (val (s + 1) ks) ls = true := by
          have := hi.1
          simp only [inst, Option.isSome_none, Bool.false_and, Bool.false_eq_true, if_false, Bool.and_eq_true] at this
          exact this.2
        rcases hh.2.1 with ⟨e, e1, e2, e3⟩ | ⟨i1, r, o', e1, e2, e3⟩
        · -- within the object
          obtain ⟨y, y1, y2⟩ := at_word e1
          obtain rfl := go_here e2 (go_iptr g1 e1)
          obtain ⟨c2, p1, p2⟩ := step d e o par ls (by omega) hr1 e3 g4 hj
          obtain ⟨c', q1, q2⟩ := rest c2 _ p2
          refine ⟨c', ?_, q2⟩
          have y1' : (m.objs o).code (q + j) = some y := y1
          simp only [size, members, l1, (kind_iptr l2).1, show ¬ (0x84 : BitVec 8) = 0x83 by decide, show ¬ (0x84 : BitVec 8) = 0x82 by decide, if_false, if_true, hb, y1',
            (kind_iptr y2).1, (kind_iptr y2).2, (kind_iptr l2).2, p1]
          exact q1
        · -- by reference
          obtain ⟨y, y1, y2⟩ := at_word e1
          obtain ⟨o2, r1, rfl⟩ := go_rptr g1 e1
          have r1' : (m.objs o).refs[r]? = some o2 := r1
          rw [e2] at r1'
          cases r1'
          have y1' : (m.objs o).code (q + j) = some y := y1
          have hf := go_final g1
          obtain ⟨c2, p1, p2⟩ := step (d + 1) 0 o' (some (p + j)) ls (by omega) (.via i1 put_eq hh.1 hr1 y1' y2 e2 hf) e3 g4 hj
          obtain ⟨c', q1, q2⟩ := rest c2 _ p2
          refine ⟨c', ?_, q2⟩
          simp only [size, members, l1, (kind_iptr l2).1, show ¬ (0x84 : BitVec 8) = 0x83 by decide, show ¬ (0x84 : BitVec 8) = 0x82 by decide, if_false, if_true, hb, y1',
            (kind_rptr y2).1, show ¬ (0x85 : BitVec 8) = 0x84 by decide, (kind_iptr l2).2, p1]
          exact q1

/-- C162 for skeletons that are trees: structures, constants (not timestamps or other such structures), variables, with tail
wildcards last; where the input refers to an object, the skeleton is within the first 256 words of the program. -/
theorem C162_tree_partial {m : Mem} {p o : Nat} {h : Word} {t : Tree} {w : Val} (hp : m.stem p = some h) (hk : kind h = .struct t.size)
    (hl : Laid m.stem (p + 1) t) (hm : Means m (p + 1) t) (hn : (p :: cells (p + 1) t).Nodup) (hi : m.inputs[m.inputs.length - 1]? = some o)
    (hs : m.inputs.length ≤ 256) (ho : Final m ⟨.obj o, 0⟩) (hw : Den m false ⟨.obj o, 0⟩ w) (hh : Held m (p + 1) o 1 t) (hf : inst (.node none h (val (p + 1) t)) w = true) :
    Den m false ⟨.stem, p⟩ (.node none h (val (p + 1) t)) ∧
    ∀ N > t.depth + 1, ∃ m', run m N p = some m' ∧ Bound m m' p (.node none h (val (p + 1) t)) w := by
  obtain ⟨v1, v2⟩ := val_den t (p + 1) hl hm
  have hpa : m.at ⟨.stem, p⟩ = some (.struct t.size) := by show Option.map kind (m.stem p) = _; rw [hp, Option.map_some, hk]
  refine ⟨.node (d := ⟨.stem, p⟩) (n := t.size) (.here (fin hpa rfl)) hp hk v1 v2, fun N hN => ?_⟩
  have hlen : 0 < m.inputs.length := by
    rcases Nat.eq_zero_or_pos m.inputs.length with h0 | h0
    · have := List.getElem?_eq_some_iff.mp hi
      obtain ⟨k, _⟩ := this
      omega
    · exact h0
  obtain ⟨n, rfl⟩ : ∃ n, N = n + 1 := ⟨N - 1, by omega⟩
  simp only [List.nodup_cons] at hn
  have ha : m.inputs.length - 1 < 256 := by omega
  have hr : ∀ c, Ref m c 0 none (m.inputs.length - 1) o := fun c => .root hi ha
  have hls : ∃ id g ls, w = .node id g ls ∧ Den m true ⟨.obj o, 1⟩ ls ∧ inst (val (p + 1) t) ls = true := by
    cases hw with
    | atom => simp [inst] at hf
    | raw => simp [inst] at hf
    | @node _ x h' k' ls g1 g2 g3 g4 g5 =>
      obtain rfl := go_here ho g1
      simp only [inst, Option.isSome_none, Bool.false_and, Bool.false_eq_true, if_false, Bool.and_eq_true] at hf
      exact ⟨_, _, ls, rfl, g4, hf.2⟩
  obtain ⟨id, g, ls, rfl, h1, h2⟩ := hls
  have ho1 : Only m.stem (put m.stem p (ptr none (m.inputs.length - 1) 0)) := only_put hp (struct_not hk)
  obtain ⟨c', e, dn⟩ := members_spec t (m := m) (N := n + 1) (a := m.inputs.length - 1) (n := n) (d := 0) (p := p) (q := 0) (j := 1) (o := o) (par := none)
    (c := put m.stem p (ptr none (m.inputs.length - 1) 0)) (ws := ls) (laid_congr t _ (fun x hx => put_ne (not_at hn.1 hx)) hl) hn.2 (hr _) (by omega) (by omega) hh h1 h2
  refine ⟨{ m with stem := c' }, ?_, ?_, fun x hx hu => ?_⟩
  · simp only [run, patchIn, hp, kind_struct hk, e, Option.map_some]
  · exact den_ref (hr c') (dn.only _ _ put_eq (desc_ptr ..)) (by omega) hw
  · simp only [holes] at hx
    obtain ⟨i, i1, i2⟩ := holes_vars t (p + 1) ls hl hm h2 x hx hu
    obtain ⟨d, par, o', k, s1, s2, s3, s4⟩ := dn.vars _ i2
    rw [i1]
    exact ⟨x.2, den_ref s3 s1 s2 s4, same_refl _⟩

/-! ## Samples -/

/-- A program (object 4) with one input (object 1), which may refer to object 2. -/
def mem (stem : Code) (input other : List Word) : Mem :=
  { objs := fun o => if o = 1 then ⟨fun i => input[i]?, [2]⟩ else if o = 2 then ⟨fun i => other[i]?, []⟩ else
      if o = 4 then ⟨fun i => [0xC3000901#32, 9#32][i]?, []⟩ else ⟨fun _ => none, []⟩
    stem := stem
    values := fun _ => none, pgm := 4, ipgm := 3, inputs := [1], prods := [] }

/-- A program in which there is a skeleton after 300 other words. -/
def late (l : List Word) : Code := fun i => if i < 300 then some 7#32 else l[i - 300]?

/-- (a (b x:)), the input, and the object it refers to. -/
def far : Mem := mem (late [0xC3000101#32, 0x8400012E#32, 0xC3000201#32, 0x82000000#32]) [0xC3000101#32, 0x85000000#32] [0xC3000201#32, 5#32]

/-- (a (b (c x:))). -/
def deep : Mem := mem (late [0xC3000101#32, 0x8400012E#32, 0xC3000201#32, 0x84000130#32, 0xC3000301#32, 0x82000000#32]) [0xC3000101#32, 0x85000000#32]
  [0xC3000201#32, 0x84000002#32, 0xC3000301#32, 5#32]

/-- (a t), `t` a timestamp, and an input with the same timestamp. -/
def stamp : Mem := mem (fun i => [0xC3000101#32, 0x84000002#32, 0xC7000002#32, 0x84000FFF#32, 7#32][i]?) [0xC3000101#32, 0x84000002#32, 0xC7000002#32, 0x84000FFF#32, 7#32] []

theorem far_matched : Matched far 300 1 (.node none 0xC3000101#32 (.cons (.node none 0xC3000201#32 (.cons (.atom ⟨.stem, 303⟩ 0x82000000#32) .nil)) .nil))
    (.node (some 1) 0xC3000101#32 (.cons (.node (some 2) 0xC3000201#32 (.cons (.atom ⟨.obj 2, 1⟩ 5#32) .nil)) .nil)) where
  skeleton := ⟨1, by decide⟩
  pattern := .node (d := ⟨.stem, 300⟩) (n := 1) (.here (fin (k := .struct 1) (by decide) rfl)) rfl (by decide)
    (.cons (.node (d := ⟨.stem, 302⟩) (n := 1) (.iptr (k := 302) (by decide) (.here (fin (k := .struct 1) (by decide) rfl))) rfl (by decide)
      (.cons (.atom (.here (fin (k := .wild) (by decide) rfl)) rfl (by decide) rfl) .nil) rfl) .nil) rfl
  last := rfl
  input := .node (d := ⟨.obj 1, 0⟩) (n := 1) (.here (fin (k := .struct 1) (by decide) rfl)) rfl (by decide)
    (.cons (.node (d := ⟨.obj 2, 0⟩) (n := 1) (.rptr (k := 0) (o := 2) (by decide) rfl (fin (k := .struct 1) (by decide) rfl)) rfl (by decide)
      (.cons (.atom (.here (fin (k := .atom) (by decide) rfl)) rfl (by decide) rfl) .nil) rfl) .nil) rfl
  fits := by decide
  once := by decide

theorem deep_matched : Matched deep 300 1
    (.node none 0xC3000101#32 (.cons (.node none 0xC3000201#32 (.cons (.node none 0xC3000301#32 (.cons (.atom ⟨.stem, 305⟩ 0x82000000#32) .nil)) .nil)) .nil))
    (.node (some 1) 0xC3000101#32 (.cons (.node (some 2) 0xC3000201#32 (.cons (.node none 0xC3000301#32 (.cons (.atom ⟨.obj 2, 3⟩ 5#32) .nil)) .nil)) .nil)) where
  skeleton := ⟨1, by decide⟩
  pattern := .node (d := ⟨.stem, 300⟩) (n := 1) (.here (fin (k := .struct 1) (by decide) rfl)) rfl (by decide)
    (.cons (.node (d := ⟨.stem, 302⟩) (n := 1) (.iptr (k := 302) (by decide) (.here (fin (k := .struct 1) (by decide) rfl))) rfl (by decide)
      (.cons (.node (d := ⟨.stem, 304⟩) (n := 1) (.iptr (k := 304) (by decide) (.here (fin (k := .struct 1) (by decide) rfl))) rfl (by decide)
        (.cons (.atom (.here (fin (k := .wild) (by decide) rfl)) rfl (by decide) rfl) .nil) rfl) .nil) rfl) .nil) rfl
  last := rfl
  input := .node (d := ⟨.obj 1, 0⟩) (n := 1) (.here (fin (k := .struct 1) (by decide) rfl)) rfl (by decide)
    (.cons (.node (d := ⟨.obj 2, 0⟩) (n := 1) (.rptr (k := 0) (o := 2) (by decide) rfl (fin (k := .struct 1) (by decide) rfl)) rfl (by decide)
      (.cons (.node (d := ⟨.obj 2, 2⟩) (n := 1) (.iptr (k := 2) (by decide) (.here (fin (k := .struct 1) (by decide) rfl))) rfl (by decide)
        (.cons (.atom (.here (fin (k := .atom) (by decide) rfl)) rfl (by decide) rfl) .nil) rfl) .nil) rfl) .nil) rfl
  fits := by decide
  once := by decide

theorem stamp_matched : Matched stamp 0 1 (.node none 0xC3000101#32 (.cons (.raw 0xC7000002#32 [0x84000FFF#32, 7#32]) .nil))
    (.node (some 1) 0xC3000101#32 (.cons (.raw 0xC7000002#32 [0x84000FFF#32, 7#32]) .nil)) where
  skeleton := ⟨1, by decide⟩
  pattern := .node (d := ⟨.stem, 0⟩) (n := 1) (.here (fin (k := .struct 1) (by decide) rfl)) rfl (by decide)
    (.cons (.raw (d := ⟨.stem, 2⟩) (n := 2) (.iptr (k := 2) (by decide) (.here (fin (k := .raw 2) (by decide) rfl))) rfl (by decide) rfl rfl) .nil) rfl
  last := rfl
  input := .node (d := ⟨.obj 1, 0⟩) (n := 1) (.here (fin (k := .struct 1) (by decide) rfl)) rfl (by decide)
    (.cons (.raw (d := ⟨.obj 1, 2⟩) (n := 2) (.iptr (k := 2) (by decide) (.here (fin (k := .raw 2) (by decide) rfl))) rfl (by decide) rfl rfl) .nil) rfl
  fits := by decide
  once := by decide

/-- A null pointer is used. -/
theorem deep_none (N : Nat) : run deep N 300 = none := by
  match N with
  | 0 => rfl
  | 1 => rfl
  | 2 => rfl
  | N + 3 => rfl

/-- Reading outside the code of the program. -/
theorem stamp_none (N : Nat) : run stamp N 0 = none := by
  match N with
  | 0 => rfl
  | 1 => rfl
  | 2 => rfl
  | N + 3 => rfl

theorem far_run (N : Nat) : ∃ m', run far (N + 2) 300 = some m' := ⟨_, rfl⟩

/-- The variable stands for the second word of the program. -/
theorem far_wrong {N : Nat} {m' : Mem} (hr : run far (N + 2) 300 = some m') {v : Val} (hv : Den m' false ⟨.stem, 303⟩ v) : v = .atom ⟨.obj 4, 1⟩ 9#32 := by
  have hw : m'.word ⟨.obj 4, 1⟩ = some 9#32 := by cases hr; rfl
  have a1 : m'.at ⟨.stem, 303⟩ = some (.dinobj 45 1) := by cases hr; decide
  have a2 : m'.at ⟨.stem, 45⟩ = some .atom := by cases hr; decide
  have a3 : m'.at ⟨.obj 4, 1⟩ = some .atom := by cases hr; decide
  have a4 : m'.pgm = 4 := by cases hr; rfl
  have key : ∀ d, Go m' ⟨.stem, 303⟩ [] d → d = ⟨.obj 4, 1⟩ := fun d g => by
    cases g with
    | dinobj h1 h2 h3 =>
      rw [a1] at h1
      cases h1
      obtain rfl := go_here (fin a2 rfl) h2
      have h3' : Go m' ⟨.obj 4, 1⟩ [] d := by rw [← a4]; exact h3
      exact go_here (fin a3 rfl) h3'
    | here h => obtain ⟨k', h1, h2⟩ := h; rw [a1] at h1; cases h1; cases h2
    | _ => simp_all
  cases hv with
  | atom g h2 h3 _ => obtain rfl := key _ g; rw [hw] at h2; cases h2; rfl
  | raw g h2 h3 _ _ =>
    obtain rfl := key _ g; rw [hw] at h2; cases h2
    have : kind 9#32 = .atom := by decide
    rw [this] at h3; cases h3
  | node g h2 h3 _ _ =>
    obtain rfl := key _ g; rw [hw] at h2; cases h2
    have : kind 9#32 = .atom := by decide
    rw [this] at h3; cases h3

/-- C162 does not hold: the place of a skeleton in the program is kept in eight bits, so that beyond the 256th word a variable
in an object that the input refers to stands for a word of the program, or a null pointer is used; and the words of a timestamp
of a skeleton are taken for wildcards and pointers. -/
theorem C162_pattern_violated : ¬ C162_full ∧
    (∃ m p o v w i, Matched m p o v w ∧ (⟨.stem, i⟩, Val.atom ⟨.obj 2, 1⟩ 5#32) ∈ holes v w ∧ (∀ N, ∃ m', run m (N + 2) p = some m') ∧
      ∀ N m', run m (N + 2) p = some m' → ¬ Bound m m' p v w ∧ ∀ x, Den m' false ⟨.stem, i⟩ x → x = .atom ⟨.obj m.pgm, 1⟩ 9#32) ∧
    (∃ v w, Matched deep 300 1 v w ∧ ∀ N, run deep N 300 = none) ∧
    (∃ v w, Matched stamp 0 1 v w ∧ ∀ N, run stamp N 0 = none) := by
  refine ⟨fun h => ?_, ⟨far, 300, 1, _, _, 303, far_matched, ?_, far_run, fun N m' hr => ⟨fun hf => ?_, fun x hx => far_wrong hr hx⟩⟩,
    ⟨_, _, deep_matched, deep_none⟩, _, _, stamp_matched, stamp_none⟩
  · obtain ⟨k, hk⟩ := h _ _ _ _ _ stamp_matched
    obtain ⟨m', h1, _⟩ := hk k (Nat.le_refl _)
    rw [stamp_none] at h1
    cases h1
  · show _ ∈ [((⟨.stem, 303⟩ : Ctx), Val.atom ⟨.obj 2, 1⟩ 5#32)]
    exact List.mem_cons_self ..
  · obtain ⟨v, h1, h2⟩ := hf.parts (⟨.stem, 303⟩, .atom ⟨.obj 2, 1⟩ 5#32)
      (by show _ ∈ [((⟨.stem, 303⟩ : Ctx), Val.atom ⟨.obj 2, 1⟩ 5#32)]; exact List.mem_cons_self ..) ⟨0x82000000#32, rfl, by decide⟩
    rw [far_wrong hr h1] at h2
    revert h2
    decide

/-- (a x: 7 (b (c y:) ::)), an input, and the object it refers to. -/
def near : Mem := mem (fun i => [0xC3000103#32, 0x82000000#32, 7#32, 0x84000004#32, 0xC3000202#32, 0x84000007#32, 0x83000000#32, 0xC3000301#32, 0x82000000#32][i]?)
  [0xC3000103#32, 5#32, 7#32, 0x85000000#32] [0xC3000202#32, 0x84000003#32, 9#32, 0xC3000301#32, 11#32]

def tree : Tree :=
  .var 0x82000000#32 (.const 7#32 (.atom ⟨.stem, 2⟩ 7#32) (.sub 0x84000004#32 4 0xC3000202#32
    (.sub 0x84000007#32 7 0xC3000301#32 (.var 0x82000000#32 .nil) (.tail 0x83000000#32)) .nil))

def given : Val := .node (some 1) 0xC3000103#32 (.cons (.atom ⟨.obj 1, 1⟩ 5#32) (.cons (.atom ⟨.obj 1, 2⟩ 7#32) (.cons
  (.node (some 2) 0xC3000202#32 (.cons (.node none 0xC3000301#32 (.cons (.atom ⟨.obj 2, 4⟩ 11#32) .nil)) (.cons (.atom ⟨.obj 2, 2⟩ 9#32) .nil))) .nil)))

/-- The hypotheses are met by a skeleton with variables in the input and in a structure of an object it refers to. -/
theorem C162_nonvacuous : near.stem 0 = some 0xC3000103#32 ∧ kind 0xC3000103#32 = .struct tree.size ∧ Laid near.stem 1 tree ∧ Means near 1 tree ∧
    (0 :: cells 1 tree).Nodup ∧ near.inputs[near.inputs.length - 1]? = some 1 ∧ near.inputs.length ≤ 256 ∧ Final near ⟨.obj 1, 0⟩ ∧
    Den near false ⟨.obj 1, 0⟩ given ∧ Held near 1 1 1 tree ∧ inst (.node none 0xC3000103#32 (val 1 tree)) given = true ∧
    ∃ m', run near 4 0 = some m' ∧ Den m' false ⟨.stem, 1⟩ (.atom ⟨.obj 1, 1⟩ 5#32) ∧ Den m' false ⟨.stem, 8⟩ (.atom ⟨.obj 2, 4⟩ 11#32) := by
  have k7 : kind 7#32 = .atom := by decide
  refine ⟨rfl, by decide, ⟨rfl, by decide, rfl, by decide, by decide, by decide, rfl, by decide, rfl, by decide, ⟨rfl, by decide, rfl, by decide, ⟨rfl, by decide, trivial⟩, rfl, by decide⟩, trivial⟩,
    ⟨.atom (.here (fin (k := .atom) (by decide) rfl)) rfl (by decide) rfl, fun w => ?_, ⟨trivial, trivial⟩, trivial⟩, by decide, rfl, by decide, fin (k := .struct 3) (by decide) rfl,
    ?_, ⟨by decide, by decide, .inr ⟨by decide, 0, 2, by decide, rfl, by decide, .inl ⟨3, by decide, fin (k := .struct 1) (by decide) rfl, by decide, trivial⟩, trivial⟩, trivial⟩, by decide, ?_⟩
  · simp only [holes]; rfl
  · exact .node (d := ⟨.obj 1, 0⟩) (n := 3) (.here (fin (k := .struct 3) (by decide) rfl)) rfl (by decide)
      (.cons (.atom (.here (fin (k := .atom) (by decide) rfl)) rfl (by decide) rfl) (.cons (.atom (.here (fin (k := .atom) (by decide) rfl)) rfl (by decide) rfl)
        (.cons (.node (d := ⟨.obj 2, 0⟩) (n := 2) (.rptr (k := 0) (o := 2) (by decide) rfl (fin (k := .struct 2) (by decide) rfl)) rfl (by decide)
          (.cons (.node (d := ⟨.obj 2, 3⟩) (n := 1) (.iptr (k := 3) (by decide) (.here (fin (k := .struct 1) (by decide) rfl))) rfl (by decide)
            (.cons (.atom (.here (fin (k := .atom) (by decide) rfl)) rfl (by decide) rfl) .nil) rfl)
            (.cons (.atom (.here (fin (k := .atom) (by decide) rfl)) rfl (by decide) rfl) .nil)) rfl) .nil))) rfl
  · refine ⟨_, rfl, .atom (.inobj (a := 0) (k := 1) (o := 1) (by decide) rfl (.here (fin (k := .atom) (by decide) rfl))) rfl (by decide) rfl,
      .atom (.dinobj (r := 3) (k := 4) (by decide) (.inobj (a := 0) (k := 3) (o := 1) (by decide) rfl (.rptr (k := 0) (o := 2) (by decide) rfl (fin (k := .struct 2) (by decide) rfl)))
        (.here (fin (k := .atom) (by decide) rfl))) rfl (by decide) rfl⟩

end Verif.Inp
