import Verif.Timings.Model
import Verif.Words.Props
/-!
# Properties C13 (narrowing is exact) and C14 (order of evidence)
-/
namespace Verif.Timings
open Verif.Atom Verif.Words Verif.BindMap

/-! ## Vocabulary -/

/-- Variable `i` of the map is bound to the instant `t`. -/
def BoundTo (m : BMap) (i : Nat) (t : BitVec 64) : Prop :=
  ∃ c, m.slots[i]? = some (.bound (.struct c)) ∧ c[0]? = some timestamp ∧ getInt64 c 1 = some t

/-- The instant `t` belongs to the interval `[a, b)`. -/
def In (t : Int) (a b : BitVec 64) : Prop := a.toInt ≤ t ∧ t < b.toInt

/-- Nothing but the values of the two variables differs. -/
def SameElsewhere (m m' : BMap) (ai bi : Nat) : Prop :=
  m'.slots.length = m.slots.length ∧ (∀ j, j ≠ ai → j ≠ bi → m'.slots[j]? = m.slots[j]?) ∧
  m'.first = m.first ∧ m'.fwdAfter = m.fwdAfter ∧ m'.fwdBefore = m.fwdBefore ∧
  m'.unboundValues = m.unboundValues

/-! ## Proof internals -/

theorem boundTo_code {m : BMap} {i : Nat} {t : BitVec 64} (h : BoundTo m i t) :
    ∃ c, codeAt m i = some c ∧ getDescriptor (c.getD 0 0) = 0xC7 ∧ codeTime c = some t := by
  obtain ⟨c, h1, h2, h3⟩ := h
  refine ⟨c, ?_, ?_, h3⟩
  · have : c.length ≠ 0 := by intro h; rw [List.length_eq_zero_iff.mp h] at h2; simp at h2
    simp [codeAt, h1, getCode, this]
  · rw [List.getD_eq_getElem?_getD, h2]; decide

theorem writeTime_spec {m : BMap} {i : Nat} {t : BitVec 64} (h : BoundTo m i t) (t' : BitVec 64) :
    ∃ m', writeTime m i t' = some m' ∧ BoundTo m' i t' ∧
      (∀ j, j ≠ i → m'.slots[j]? = m.slots[j]?) ∧ m'.slots.length = m.slots.length ∧
      m'.first = m.first ∧ m'.fwdAfter = m.fwdAfter ∧ m'.fwdBefore = m.fwdBefore ∧
      m'.unboundValues = m.unboundValues := by
  obtain ⟨c, h1, h2, h3⟩ := h
  have hlen : 2 < c.length := by
    simp only [getInt64, Words.get, Option.bind_eq_bind, Option.bind_eq_some_iff] at h3
    obtain ⟨_, _, _, hb, _⟩ := h3
    exact (List.getElem?_eq_some_iff.mp hb).1
  obtain ⟨c', hc'⟩ := setInt64_isSome (c.set 0 timestamp) 1 t' (by simp; omega)
  obtain ⟨k1, k2, k3, k4⟩ := setInt64_spec hc'
  have hi : i < m.slots.length := (List.getElem?_eq_some_iff.mp h1).1
  refine ⟨{ m with slots := m.slots.set i (.bound (.struct c')) }, ?_, ⟨c', ?_, ?_, ?_⟩, ?_, ?_,
    rfl, rfl, rfl, rfl⟩
  · have : ¬ c.length = 0 := by omega
    simp [writeTime, h1, setCodeTime, this, hc']
  · simp [hi]
  · rw [k4 0 (by omega) (by omega), List.getElem?_set_self (by omega)]
  · exact getInt64_of k2 k3
  · intro j hj; exact List.getElem?_set_ne (by omega)
  · simp

theorem boundTo_of_frame {m m' : BMap} {i : Nat} {t : BitVec 64} (h : BoundTo m i t)
    (e : m'.slots[i]? = m.slots[i]?) : BoundTo m' i t := by
  obtain ⟨c, h1, h2, h3⟩ := h; exact ⟨c, by rw [e, h1], h2, h3⟩

/-- What the comparisons of `match_timings` yield on the four instants. -/
def narrow (sa sb a b : BitVec 64) : Option (BitVec 64 × BitVec 64) :=
  if sa.sle a then
    if b.sle sb then some (a, b) else if a.slt sb then some (a, sb) else none
  else if sb.sle b then some (sa, sb) else if sa.slt b then some (sa, b) else none

theorem matchTimings_narrow {m : BMap} {ai bi : Nat} {sa sb : BitVec 64} (ha : BoundTo m ai sa)
    (hb : BoundTo m bi sb) (hne : ai ≠ bi) (a b : BitVec 64) :
    ∃ m', matchTimings m a b ai bi = some ((narrow sa sb a b).isSome, m') ∧
      (∀ x y, narrow sa sb a b = some (x, y) → BoundTo m' ai x ∧ BoundTo m' bi y) ∧
      (narrow sa sb a b = none → m' = m) ∧ SameElsewhere m m' ai bi := by
  obtain ⟨ac, a1, a2, a3⟩ := boundTo_code ha
  obtain ⟨bc, b1, b2, b3⟩ := boundTo_code hb
  have refl : SameElsewhere m m ai bi := ⟨rfl, fun _ _ _ => rfl, rfl, rfl, rfl, rfl⟩
  obtain ⟨m1, w1, w2, w3, w4, w5, w6, w7, w8⟩ := writeTime_spec ha a
  have hb1 : BoundTo m1 bi sb := boundTo_of_frame hb (w3 bi (Ne.symm hne))
  obtain ⟨m2, v1, v2, v3, v4, v5, v6, v7, v8⟩ := writeTime_spec hb1 b
  obtain ⟨m3, u1, u2, u3, u4, u5, u6, u7, u8⟩ := writeTime_spec hb b
  simp only [matchTimings, a1, b1, Option.bind_some, a2, b2, ne_eq, not_true_eq_false, or_self,
    if_false, a3, b3]
  unfold narrow
  by_cases h1 : sa.sle a
  · simp only [h1, if_true]
    by_cases h2 : b.sle sb
    · simp only [h2, if_true, w1, Option.bind_some, v1, Option.map_some]
      refine ⟨m2, rfl, ?_, by simp, ?_⟩
      · rintro x y h; cases h
        exact ⟨boundTo_of_frame w2 (v3 ai hne), v2⟩
      · exact ⟨by rw [v4, w4], fun j j1 j2 => by rw [v3 j j2, w3 j j1], by rw [v5, w5],
          by rw [v6, w6], by rw [v7, w7], by rw [v8, w8]⟩
    · simp only [h2]
      by_cases h3 : a.slt sb
      · simp only [h3, if_true, w1, Option.map_some]
        refine ⟨m1, rfl, ?_, by simp, ?_⟩
        · rintro x y h; cases h; exact ⟨w2, hb1⟩
        · exact ⟨w4, fun j j1 _ => w3 j j1, w5, w6, w7, w8⟩
      · simp only [h3]
        exact ⟨m, rfl, by simp, fun _ => rfl, refl⟩
  · simp only [h1]
    by_cases h2 : sb.sle b
    · simp only [h2, if_true]
      refine ⟨m, rfl, ?_, fun _ => rfl, refl⟩
      rintro x y h; cases h; exact ⟨ha, hb⟩
    · simp only [h2]
      by_cases h3 : sa.slt b
      · simp only [h3, if_true, u1, Option.map_some]
        refine ⟨m3, rfl, ?_, by simp, ?_⟩
        · rintro x y h; cases h; exact ⟨boundTo_of_frame ha (u3 ai hne), u2⟩
        · exact ⟨u4, fun j _ j2 => u3 j j2, u5, u6, u7, u8⟩
      · simp only [h3]
        exact ⟨m, rfl, by simp, fun _ => rfl, refl⟩

theorem narrow_proper {sa sb a b : BitVec 64} (hs : sa.toInt < sb.toInt) (ha : a.toInt < b.toInt) :
    narrow sa sb a b =
      if max sa.toInt a.toInt < min sb.toInt b.toInt then
        some (if sa.toInt ≤ a.toInt then a else sa, if b.toInt ≤ sb.toInt then b else sb)
      else none := by
  unfold narrow
  simp only [BitVec.sle, BitVec.slt, decide_eq_true_eq]
  by_cases h1 : sa.toInt ≤ a.toInt <;> by_cases h2 : b.toInt ≤ sb.toInt <;>
    by_cases h3 : a.toInt < sb.toInt <;> by_cases h4 : sb.toInt ≤ b.toInt <;>
    by_cases h5 : sa.toInt < b.toInt <;> simp only [h1, h2, h3, h4, h5, if_true, if_false] <;>
    first
      | (exfalso; omega)
      | (rw [if_pos (by omega)]; done)
      | (rw [if_neg (by omega)]; done)
      | (rw [if_pos (by omega), BitVec.eq_of_toInt_eq (show sb.toInt = b.toInt by omega)])

/-! ## C13 -/

/-- C13: for intervals that contain at least one instant, matching succeeds exactly when the
stored interval and the given one share an instant; on success the variables are bound to an
interval which contains exactly the common instants, on failure nothing changes at all; in no case
is another variable touched. -/
theorem C13_narrowing_exact (m : BMap) (ai bi : Nat) (hne : ai ≠ bi) (sa sb a b : BitVec 64)
    (ha : BoundTo m ai sa) (hb : BoundTo m bi sb)
    (hs : ∃ t, In t sa sb) (hi : ∃ t, In t a b) :
    ∃ ok m', matchTimings m a b ai bi = some (ok, m') ∧
      (ok = true ↔ ∃ t, In t sa sb ∧ In t a b) ∧
      (ok = true → ∃ x y, BoundTo m' ai x ∧ BoundTo m' bi y ∧
        ∀ t, In t x y ↔ In t sa sb ∧ In t a b) ∧
      (ok = false → m' = m) ∧ SameElsewhere m m' ai bi := by
  obtain ⟨ts, h1, h2⟩ := hs
  obtain ⟨ti, h3, h4⟩ := hi
  obtain ⟨m', r1, r2, r3, r4⟩ := matchTimings_narrow ha hb hne a b
  refine ⟨_, m', r1, ?_, ?_, ?_, r4⟩
  · rw [narrow_proper (by omega) (by omega)]
    split
    · rename_i h
      simp only [Option.isSome_some, true_iff, In]
      exact ⟨max sa.toInt a.toInt, by omega, by omega⟩
    · rename_i h
      simp only [Option.isSome_none, Bool.false_eq_true, false_iff, In]
      rintro ⟨t, ⟨_, _⟩, _, _⟩; omega
  · intro hk
    obtain ⟨⟨x, y⟩, hxy⟩ := Option.isSome_iff_exists.mp hk
    obtain ⟨bx, by'⟩ := r2 x y hxy
    refine ⟨x, y, bx, by', ?_⟩
    rw [narrow_proper (by omega) (by omega)] at hxy
    split at hxy
    · simp only [Option.some.injEq, Prod.mk.injEq] at hxy
      obtain ⟨rfl, rfl⟩ := hxy
      intro t
      simp only [In]
      split <;> split <;> omega
    · cases hxy
  · intro hk; exact r3 (Option.isSome_eq_false_iff.mp hk |> Option.isNone_iff_eq_none.mp)

/-- C13: an instantaneous fact (`after = before`) is accepted exactly when the instant lies in the
stored interval, both ends included, and the variables are then bound to it. -/
theorem C13_instant (m : BMap) (ai bi : Nat) (hne : ai ≠ bi) (sa sb a : BitVec 64)
    (ha : BoundTo m ai sa) (hb : BoundTo m bi sb) (hs : sa.toInt < sb.toInt) :
    ∃ ok m', matchTimings m a a ai bi = some (ok, m') ∧
      (ok = true ↔ sa.toInt ≤ a.toInt ∧ a.toInt ≤ sb.toInt) ∧
      (ok = true → BoundTo m' ai a ∧ BoundTo m' bi a) ∧
      (ok = false → m' = m) ∧ SameElsewhere m m' ai bi := by
  obtain ⟨m', r1, r2, r3, r4⟩ := matchTimings_narrow ha hb hne a a
  have key : narrow sa sb a a =
      if sa.toInt ≤ a.toInt ∧ a.toInt ≤ sb.toInt then some (a, a) else none := by
    unfold narrow
    simp only [BitVec.sle, BitVec.slt, decide_eq_true_eq]
    by_cases h1 : sa.toInt ≤ a.toInt <;> by_cases h2 : a.toInt ≤ sb.toInt <;>
      simp only [h1, h2, if_true, if_false, and_self, true_and, false_and] <;>
      (repeat' split) <;> first | rfl | omega
  refine ⟨_, m', r1, ?_, ?_, ?_, r4⟩
  · rw [key]; split <;> simp_all
  · intro hk
    rw [key] at hk
    split at hk
    · rename_i h; exact r2 a a (by rw [key, if_pos h])
    · cases hk
  · intro hk; exact r3 (Option.isSome_eq_false_iff.mp hk |> Option.isNone_iff_eq_none.mp)

/-- C13: a variable that is bound to something else than an instant never matches, and the map is
unchanged. -/
theorem C13_not_a_time (m : BMap) (ai bi : Nat) (a b : BitVec 64) (ac bc : Code)
    (ha : m.slots[ai]? = some (.bound (.struct ac))) (hb : m.slots[bi]? = some (.bound (.struct bc)))
    (hla : ac ≠ []) (hlb : bc ≠ [])
    (h : getDescriptor (ac.getD 0 0) ≠ 0xC7 ∨ getDescriptor (bc.getD 0 0) ≠ 0xC7) :
    matchTimings m a b ai bi = some (false, m) := by
  have e1 : codeAt m ai = some ac := by simp [codeAt, ha, getCode, hla]
  have e2 : codeAt m bi = some bc := by simp [codeAt, hb, getCode, hlb]
  simp only [matchTimings, e1, e2, Option.bind_some]
  rw [if_pos h]

/-- Example map: variables 3 and 4 hold the interval [10, 20). -/
def exMap (a b : BitVec 64) : BMap :=
  { slots := [.unbound 0, .unbound 1, .unbound 2,
      .bound (.struct [timestamp, hi32 a, lo32 a]), .bound (.struct [timestamp, hi32 b, lo32 b])]
    unboundValues := 3 }

theorem exMap_bound (a b : BitVec 64) : BoundTo (exMap a b) 3 a ∧ BoundTo (exMap a b) 4 b :=
  ⟨⟨_, rfl, rfl, getInt64_of rfl rfl⟩, ⟨_, rfl, rfl, getInt64_of rfl rfl⟩⟩

/-- The hypotheses of `C13_narrowing_exact` are met by a partial overlap ... -/
example : BoundTo (exMap 10 20) 3 10 ∧ BoundTo (exMap 10 20) 4 20 ∧ (∃ t, In t 10 20) ∧
    (∃ t, In t 15 30) ∧ matchTimings (exMap 10 20) 15 30 3 4 = some (true, exMap 15 20) :=
  ⟨(exMap_bound _ _).1, (exMap_bound _ _).2, ⟨12, by decide, by decide⟩,
    ⟨16, by decide, by decide⟩, by decide⟩
/-- ... and by two intervals that only touch, which do not match. -/
example : matchTimings (exMap 10 20) 20 30 3 4 = some (false, exMap 10 20) := by decide

/-! ## C14 -/

/-- What is visible of matching a whole collection: success and the final interval. -/
def Outcome (m : BMap) (ai bi : Nat) (l : List (BitVec 64 × BitVec 64))
    (o : Option (BitVec 64 × BitVec 64)) : Prop :=
  ∃ ok m', matchAll m ai bi l = some (ok, m') ∧
    match o with
    | none => ok = false
    | some (x, y) => ok = true ∧ BoundTo m' ai x ∧ BoundTo m' bi y

/-- C14, full statement: for every collection of intervals (after ≤ before), matching it in two
orders has the same outcome. -/
def C14_full : Prop :=
  ∀ (m : BMap) (ai bi : Nat) (sa sb : BitVec 64) (l l' : List (BitVec 64 × BitVec 64)),
    ai ≠ bi → BoundTo m ai sa → BoundTo m bi sb → sa.toInt ≤ sb.toInt →
    (∀ p ∈ l, p.1.toInt ≤ p.2.toInt) → l.Perm l' →
    ∀ o, Outcome m ai bi l o ↔ Outcome m ai bi l' o

theorem boundTo_unique {m : BMap} {i : Nat} {s t : BitVec 64} (h : BoundTo m i s)
    (h' : BoundTo m i t) : s = t := by
  obtain ⟨c, h1, _, h3⟩ := h
  obtain ⟨c', h1', _, h3'⟩ := h'
  rw [h1] at h1'; cases h1'; rw [h3] at h3'; exact Option.some.inj h3'

/-- The full statement fails: within a stored [0, 10], the instant 5 and then [5, 8] is rejected,
whereas [5, 8] and then the instant 5 is accepted. -/
theorem C14_order_independent_violated :
    ¬ C14_full ∧
    (∃ m', matchAll (exMap 0 10) 3 4 [(5, 5), (5, 8)] = some (false, m')) ∧
    (∃ m', matchAll (exMap 0 10) 3 4 [(5, 8), (5, 5)] = some (true, m')) := by
  have w1 : matchAll (exMap 0 10) 3 4 [(5, 5), (5, 8)] = some (false, exMap 5 5) := by decide
  have w2 : matchAll (exMap 0 10) 3 4 [(5, 8), (5, 5)] = some (true, exMap 5 5) := by decide
  refine ⟨?_, ⟨_, w1⟩, ⟨_, w2⟩⟩
  intro h
  have := (h (exMap 0 10) 3 4 0 10 [(5, 5), (5, 8)] [(5, 8), (5, 5)] (by decide)
    (exMap_bound _ _).1 (exMap_bound _ _).2 (by decide) (by decide) (List.Perm.swap _ _ _) none).mp
    ⟨false, _, w1, rfl⟩
  obtain ⟨ok, m', e, hk⟩ := this
  rw [w2] at e; cases e; cases hk

/-- `t` is common to the stored interval and all of the collection. -/
def Common (sa sb : BitVec 64) (l : List (BitVec 64 × BitVec 64)) (t : Int) : Prop :=
  In t sa sb ∧ ∀ p ∈ l, In t p.1 p.2

/-- C14 and C13 together: for intervals with at least one instant each, the collection matches
exactly when all of it shares an instant, and then the interval finally bound contains exactly
the shared instants. -/
theorem C14_collection (l : List (BitVec 64 × BitVec 64)) :
    ∀ (m : BMap) (ai bi : Nat) (sa sb : BitVec 64), ai ≠ bi → BoundTo m ai sa → BoundTo m bi sb →
    sa.toInt < sb.toInt → (∀ p ∈ l, p.1.toInt < p.2.toInt) →
    ∃ ok m', matchAll m ai bi l = some (ok, m') ∧
      (ok = true ↔ ∃ t, Common sa sb l t) ∧
      (ok = true → ∃ x y, BoundTo m' ai x ∧ BoundTo m' bi y ∧ x.toInt < y.toInt ∧
        ∀ t, In t x y ↔ Common sa sb l t) := by
  induction l with
  | nil =>
    intro m ai bi sa sb _ ha hb hs _
    refine ⟨true, m, rfl, ?_, ?_⟩
    · simp only [true_iff]
      exact ⟨sa.toInt, ⟨⟨by omega, by omega⟩, by simp⟩⟩
    · intro _; exact ⟨sa, sb, ha, hb, hs, by simp [Common]⟩
  | cons p l ih =>
    intro m ai bi sa sb hne ha hb hs hl
    obtain ⟨a, b⟩ := p
    have hab : a.toInt < b.toInt := hl (a, b) (by simp)
    obtain ⟨ok, m1, e, h1, h2, h3, _⟩ := C13_narrowing_exact m ai bi hne sa sb a b ha hb
      ⟨sa.toInt, by constructor <;> omega⟩ ⟨a.toInt, by constructor <;> omega⟩
    cases ok with
    | false =>
      refine ⟨false, m1, by simp [matchAll, e], ?_, by simp⟩
      simp only [Bool.false_eq_true, false_iff] at h1 ⊢
      rintro ⟨t, ht, hp⟩
      exact h1 ⟨t, ht, hp (a, b) (by simp)⟩
    | true =>
      obtain ⟨x, y, hx, hy, hxy⟩ := h2 rfl
      obtain ⟨t0, ht0⟩ := h1.mp rfl
      have ht0' := (hxy t0).mpr ht0
      have hlt : x.toInt < y.toInt := by obtain ⟨_, _⟩ := ht0'; omega
      obtain ⟨ok', m', e', k1, k2⟩ := ih m1 ai bi x y hne hx hy hlt
        (fun p hp => hl p (by simp [hp]))
      have hc : ∀ t, Common x y l t ↔ Common sa sb ((a, b) :: l) t := by
        intro t
        simp only [Common, hxy t, List.mem_cons, forall_eq_or_imp]
        constructor
        · rintro ⟨⟨q1, q2⟩, q3⟩; exact ⟨q1, q2, q3⟩
        · rintro ⟨q1, q2, q3⟩; exact ⟨⟨q1, q2⟩, q3⟩
      refine ⟨ok', m', by simp [matchAll, e, e'], ?_, ?_⟩
      · rw [k1]; simp only [hc]
      · intro hk
        obtain ⟨x', y', q1, q2, q3, q4⟩ := k2 hk
        exact ⟨x', y', q1, q2, q3, fun t => by rw [q4 t, hc t]⟩

/-- C14, proved part: for intervals that contain at least one instant, the outcome does not depend
on the order. Missing: instantaneous intervals, where the statement is false. -/
theorem C14_order_independent_partial (m : BMap) (ai bi : Nat) (sa sb : BitVec 64)
    (l l' : List (BitVec 64 × BitVec 64)) (hne : ai ≠ bi) (ha : BoundTo m ai sa)
    (hb : BoundTo m bi sb) (hs : sa.toInt < sb.toInt) (hl : ∀ p ∈ l, p.1.toInt < p.2.toInt)
    (hp : l.Perm l') (o : Option (BitVec 64 × BitVec 64)) :
    Outcome m ai bi l o ↔ Outcome m ai bi l' o := by
  have main : ∀ l l' : List (BitVec 64 × BitVec 64), (∀ p ∈ l, p.1.toInt < p.2.toInt) →
      l.Perm l' → Outcome m ai bi l o → Outcome m ai bi l' o := by
    intro l l' hl hp ho
    obtain ⟨ok, m1, e1, h1, k1⟩ := C14_collection l m ai bi sa sb hne ha hb hs hl
    obtain ⟨ok', m2, e2, h2, k2⟩ := C14_collection l' m ai bi sa sb hne ha hb hs
      (fun p h => hl p (hp.mem_iff.mpr h))
    have hc : ∀ t, Common sa sb l t ↔ Common sa sb l' t := by
      intro t; simp only [Common, hp.mem_iff]
    have hok : ok = ok' := by
      rw [Bool.eq_iff_iff, h1, h2]; simp only [hc]
    obtain ⟨okx, mx, ex, hx⟩ := ho
    rw [e1] at ex; cases ex
    refine ⟨ok', m2, e2, ?_⟩
    cases o with
    | none => simp only at hx ⊢; rw [← hok]; exact hx
    | some p =>
      obtain ⟨x, y⟩ := p
      simp only at hx ⊢
      obtain ⟨q1, q2, q3⟩ := hx
      obtain ⟨x1, y1, a1, a2, a3, a4⟩ := k1 q1
      obtain ⟨x2, y2, b1, b2, b3, b4⟩ := k2 (by rw [← hok]; exact q1)
      obtain rfl := boundTo_unique q2 a1
      obtain rfl := boundTo_unique q3 a2
      have heq : ∀ t, In t x y ↔ In t x2 y2 := fun t => by rw [a4 t, b4 t, hc t]
      have g1 := heq x.toInt
      have g2 := heq x2.toInt
      have g3 := heq (y.toInt - 1)
      have g4 := heq (y2.toInt - 1)
      simp only [In] at g1 g2 g3 g4
      have ex : x = x2 := BitVec.eq_of_toInt_eq (by omega)
      have ey : y = y2 := BitVec.eq_of_toInt_eq (by omega)
      subst ex; subst ey
      exact ⟨by rw [← hok]; exact q1, b1, b2⟩
  exact ⟨main l l' hl hp, main l' l (fun p h => hl p (hp.mem_iff.mpr h)) hp.symm⟩

/-- Hypotheses met: three overlapping intervals, in two orders, bind [15, 18). -/
example : matchAll (exMap 10 20) 3 4 [(5, 18), (15, 30), (0, 100)] = some (true, exMap 15 18) ∧
    matchAll (exMap 10 20) 3 4 [(0, 100), (15, 30), (5, 18)] = some (true, exMap 15 18) := by
  constructor <;> decide

end Verif.Timings
