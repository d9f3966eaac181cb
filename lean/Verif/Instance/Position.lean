import Verif.Instance.Props
/-!
# C79: where an instance holds a variable

`get_ihlp_exposed_args_position` and the exposed arguments written by `build_f_ihlp`.
-/
namespace Verif.Instance
open Verif.Atom Verif.Words Verif.BindMap Verif.Values

/-- Entry `v` is exposed: at or after the first, neither of the first timings. -/
def Exposed (m : BMap) (v : Nat) : Prop :=
  m.first.toNat ≤ v ∧ v < m.slots.length ∧ m.fwdAfter ≠ (v : Int) ∧ m.fwdBefore ≠ (v : Int)

theorem isFwd_false {m : BMap} {v : Nat} (h : Exposed m v) : isFwd m v = false := by
  obtain ⟨_, _, h1, h2⟩ := h
  simp only [isFwd, Bool.or_eq_false_iff, beq_eq_false_iff_ne]
  exact ⟨fun h => h1 h.symm, fun h => h2 h.symm⟩

/-- The position of an entry counts the entries written before it; `v` is at that place. -/
theorem findPosition_spec {m : BMap} {v : Nat} (hv : isFwd m v = false) :
    ∀ k i pos, i ≤ v → v < i + k →
      findPosition m v k i pos = ((pos + nonFwd m (v - i) i : Nat) : Int) ∧
      ∀ c rs at_, ExposedAt m c rs k i at_ →
        ∃ s w, m.slots[v]? = some s ∧ c[at_ + nonFwd m (v - i) i]? = some w ∧ Written c rs w s := by
  intro k
  induction k with
  | zero => intro i pos h1 h2; omega
  | succ k ih =>
    intro i pos h1 h2
    by_cases he : i = v
    · subst he
      have e0 : nonFwd m (i - i) i = 0 := by rw [Nat.sub_self]; rfl
      refine ⟨?_, fun c rs at_ hE => ?_⟩
      · simp only [findPosition, hv, Bool.false_eq_true, if_false, if_true, e0, Nat.add_zero]
      · simp only [ExposedAt, hv, Bool.false_eq_true, if_false] at hE
        rw [e0]
        exact hE.1
    · obtain ⟨d, hd⟩ : ∃ d, v - i = d + 1 := ⟨v - i - 1, by omega⟩
      have hd' : v - (i + 1) = d := by omega
      have hne : ¬ (i : Int) = (v : Int) := by omega
      by_cases hf : isFwd m i = true
      · obtain ⟨q1, q2⟩ := ih (i + 1) pos (by omega) (by omega)
        have e : nonFwd m (v - i) i = nonFwd m (v - (i + 1)) (i + 1) := by
          rw [hd, hd']; simp only [nonFwd, hf, if_true]
        rw [e]
        refine ⟨by simp only [findPosition, hf, if_true]; exact q1, fun c rs at_ hE => ?_⟩
        simp only [ExposedAt, hf, if_true] at hE
        exact q2 c rs at_ hE
      · obtain ⟨q1, q2⟩ := ih (i + 1) (pos + 1) (by omega) (by omega)
        have e : nonFwd m (v - i) i = nonFwd m (v - (i + 1)) (i + 1) + 1 := by
          rw [hd, hd']; simp only [nonFwd, hf, if_false, Bool.false_eq_true]
        rw [e]
        refine ⟨?_, fun c rs at_ hE => ?_⟩
        · simp only [findPosition, hf, if_false, hne, Bool.false_eq_true]
          rw [q1]; congr 1; omega
        · simp only [ExposedAt, hf, if_false, Bool.false_eq_true] at hE
          have := q2 c rs _ hE.2
          rwa [show at_ + (nonFwd m (v - (i + 1)) (i + 1) + 1) = at_ + 1 + nonFwd m (v - (i + 1)) (i + 1) by omega]

/-- Positions grow with the entries. -/
theorem nonFwd_lt {m : BMap} : ∀ d e i, d < e → isFwd m (i + d) = false → nonFwd m d i < nonFwd m e i := by
  intro d
  induction d with
  | zero =>
    intro e i h hf
    obtain ⟨e, rfl⟩ : ∃ e', e = e' + 1 := ⟨e - 1, by omega⟩
    rw [Nat.add_zero] at hf
    simp only [nonFwd, hf, Bool.false_eq_true, if_false]
    omega
  | succ d ih =>
    intro e i h hf
    obtain ⟨e, rfl⟩ : ∃ e', e = e' + 1 := ⟨e - 1, by omega⟩
    have := ih e (i + 1) (by omega) (by rw [show i + 1 + d = i + (d + 1) by omega]; exact hf)
    simp only [nonFwd]
    split <;> omega

theorem position_eq {m : BMap} {v : Nat} (h : Exposed m v) :
    exposedPosition m v = ((nonFwd m (v - m.first.toNat) m.first.toNat : Nat) : Int) := by
  have hf := isFwd_false h
  obtain ⟨h1, h2, h3, h4⟩ := h
  unfold exposedPosition
  rw [if_neg (by
      rintro (h | h | h | h)
      · exact h3 h.symm
      · exact h4 h.symm
      · omega
      · omega), (findPosition_spec hf _ _ 0 h1 (by omega)).1, Nat.zero_add]

/-- C79: an exposed entry has a position. -/
theorem C79_exposed (m : BMap) (index : Int) :
    (0 ≤ exposedPosition m index ↔ ∃ v : Nat, index = v ∧ Exposed m v) ∧
    (exposedPosition m index < 0 → exposedPosition m index = -1) := by
  by_cases h : ∃ v : Nat, index = v ∧ Exposed m v
  · obtain ⟨v, rfl, hv⟩ := h
    rw [position_eq hv]
    exact ⟨⟨fun _ => ⟨v, rfl, hv⟩, fun _ => by omega⟩, fun h => by omega⟩
  · have : exposedPosition m index = -1 := by
      unfold exposedPosition
      refine if_pos (Classical.byContradiction fun hn => h ?_)
      simp only [not_or] at hn
      refine ⟨index.toNat, by omega, by omega, by omega, fun e => hn.1 (by omega), fun e => hn.2.1 (by omega)⟩
    rw [this]
    exact ⟨⟨fun h => absurd h (by decide), fun h' => absurd h' h⟩, fun _ => rfl⟩

/-- C79: later entries have later positions. -/
theorem C79_ordered (m : BMap) (v w : Nat) (hv : Exposed m v) (hw : Exposed m w) (h : v < w) :
    exposedPosition m v < exposedPosition m w := by
  rw [position_eq hv, position_eq hw]
  have := nonFwd_lt (m := m) (v - m.first.toNat) (w - m.first.toNat) m.first.toNat (by have := hv.1; omega)
    (by rw [show m.first.toNat + (v - m.first.toNat) = v by have := hv.1; omega]; exact isFwd_false hv)
  omega

/-- C79: the instance holds the value of each exposed entry at its position in the exposed arguments. -/
theorem C79_position (ti : Word) (hlp : Code) (t : Word) (m m0 : BMap) (n id f : Nat) (op : BitVec 16)
    (wr : Bool) (o : Obj) (ht : hlp[1]? = some t) (hA : Args n hlp (asIndex t).toNat) (R : Ready m m0)
    (h : buildIhlp ti f m hlp id op wr = some o) (h4 : o.code.length ≤ 4096) (hr4 : o.refs.length ≤ 4096)
    (v : Nat) (hv : Exposed m v) :
    ∃ x s w, o.code[3]? = some x ∧ m.slots[v]? = some s ∧
      o.code[(asIndex x).toNat + 1 + (exposedPosition m v).toNat]? = some w ∧ Written o.code o.refs w s := by
  obtain ⟨_, x, _, hx, _, hE⟩ := buildIhlp_spec R ht hA h h4 hr4
  obtain ⟨s, w, q1, q2, q3⟩ := (findPosition_spec (isFwd_false hv) (m.slots.length - m.first.toNat)
    m.first.toNat 0 hv.1 (by have := hv.1; have := hv.2.1; omega)).2 _ _ _ hE
  refine ⟨x, s, w, hx, q1, ?_, q3⟩
  rw [position_eq hv, Int.toNat_natCast]
  exact q2

/-- The map of C77 with the first timings between exposed entries. -/
def map3 : BMap :=
  { slots := [.bound (.struct (tsC 10)), .bound (.struct (tsC 20)), .bound (.atom (float 0x3F800000)),
      .bound (.obj 4), .bound (.struct (tsC 30)), .bound (.struct (tsC 40)), .unbound 6],
    first := 3, fwdAfter := 4, fwdBefore := 5 }

theorem ready3 : Ready map3 map3 :=
  ⟨rfl, by decide, rfl, rfl, rfl, fun _ _ h => h, by
    refine slots_cases fun v hv s hs => ?_
    have hv' : v < 7 := hv
    match v, hv' with
    | 0, _ => obtain rfl := Option.some.inj hs; exact ts_good _ (by decide)
    | 1, _ => obtain rfl := Option.some.inj hs; exact ts_good _ (by decide)
    | 2, _ => obtain rfl := Option.some.inj hs; exact ⟨by decide, by decide, by decide, by decide, by decide⟩
    | 3, _ => obtain rfl := Option.some.inj hs; trivial
    | 4, _ => obtain rfl := Option.some.inj hs; exact ts_good _ (by decide)
    | 5, _ => obtain rfl := Option.some.inj hs; exact ts_good _ (by decide)
    | 6, _ => obtain rfl := Option.some.inj hs; exact trivial, 4, 5, tsC 30, tsC 40, by decide⟩

/-- The hypotheses of `C79_position` hold with the first timings between two exposed entries, the second of
them unbound: the entries 3 and 6 have positions 0 and 1, where the instance holds the object and the
variable. -/
theorem C79_nonvacuous : hlp2[1]? = some (iPointer 2) ∧ Args 3 hlp2 (asIndex (iPointer 2)).toNat ∧
    Ready map3 map3 ∧ Exposed map3 3 ∧ Exposed map3 6 ∧ exposedPosition map3 3 = 0 ∧
    exposedPosition map3 6 = 1 ∧ exposedPosition map3 4 = -1 ∧ exposedPosition map3 2 = -1 ∧
    exposedPosition map3 7 = -1 ∧
    ∃ o x, buildIhlp tiW 10 map3 hlp2 1 3 true = some o ∧ o.code.length ≤ 4096 ∧ o.refs.length ≤ 4096 ∧
      o.code[3]? = some x ∧ o.code[(asIndex x).toNat + 1]? = some (rPointer 1) ∧ o.refs[1]? = some 4 ∧
      o.code[(asIndex x).toNat + 2]? = some (vlPointer 6) := by
  refine ⟨rfl, args2, ready3, by unfold Exposed; decide, by unfold Exposed; decide, by decide, by decide,
    by decide, by decide, by decide, _, _, rfl, by decide, by decide, rfl, rfl, rfl, rfl⟩

end Verif.Instance
