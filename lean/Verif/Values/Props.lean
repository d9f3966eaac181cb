import Verif.Values.Lemmas
/-!
# C76: a value keeps its content when it is copied
-/
namespace Verif.Values
open Verif.Atom Verif.Words

/-- C76. A finite structure, copied from any code to the end of any other code, has the same content there:
the same members and members of members. Pointers address 4096 words, so what is written has to end there.
The content of strings, timestamps and durations is plain data. -/
def C76_full : Prop :=
  ∀ (src : Code) (j : Nat), Whole src j → ∀ (d : Code) (e : Nat),
    ∃ f d' e', copyStructure src f d e j = some (d', e') ∧
      (e' ≤ 4096 → ∀ p, look d' e p = look src j p)

/-- C76, partial: for structures whose plain data has no word with the leading byte of a pointer. The copy
ends for every sufficient depth, leaves the words before it alone and can be copied again. -/
theorem C76_copies_partial (src : Code) (j : Nat) (hw : Whole src j) (hp : Plain src j) (d : Code) (e : Nat) :
    ∃ f d' e', (∀ g, f ≤ g → copyStructure src g d e j = some (d', e')) ∧ e < e' ∧
      (∀ q, q < e → q < d.length → d'[q]? = d[q]?) ∧
      (e' ≤ 4096 → (∀ p, look d' e p = look src j p) ∧ Whole d' e ∧ Plain d' e) := by
  obtain ⟨f, hf⟩ := copyStructure_total hp hw
  obtain ⟨⟨d', e'⟩, hr⟩ := Option.isSome_iff_exists.1 (hf f (Nat.le_refl _) d e)
  have C := copyStructure_spec f d e j d' e' hr hp hw
  refine ⟨f, d', e', fun g hg => copyStructure_mono' hr g hg, C.grows, fun q h1 h2 => C.kept q h1 h2, fun h4 => ?_⟩
  obtain ⟨h1, h2, h3, -⟩ := C.same h4 d' (fun _ _ _ => rfl)
  exact ⟨h1, h3, h2⟩

/-- C76, partial: what a variable was bound to in one object is what is written into another one, behind the
pointer put at the place of the variable. -/
theorem C76_carried_partial (src : Code) (j : Nat) (hw : Whole src j) (hp : Plain src j) (d : Code)
    (write ext : Nat) (hwe : write < ext) :
    ∃ f v d' e', structureValue f src j = some v ∧
      (v.length ≤ 4096 → ∃ g, valuateStruct g v d write ext = some (d', e') ∧
        (e' ≤ 4096 → d'[write]? = some (iPointer (BitVec.ofNat 16 ext)) ∧
          (∀ q, q < ext → q ≠ write → q < d.length → d'[q]? = d[q]?) ∧
          ∀ p, look d' ext p = look src j p)) := by
  obtain ⟨f, hf⟩ := copyStructure_total hp hw
  obtain ⟨⟨v, n⟩, hr⟩ := Option.isSome_iff_exists.1 (hf f (Nat.le_refl _) [] 0)
  have C := copyStructure_spec f [] 0 j v n hr hp hw
  by_cases hv : v.length ≤ 4096
  · obtain ⟨h1, h2, h3, -⟩ := C.same (by have := C.room; omega) v (fun _ _ _ => rfl)
    obtain ⟨g, d', e', hg, h4, h5, h6⟩ := C76_copies_partial v 0 h3 h2 (put d write (ip ext)) ext
    refine ⟨f, v, d', e', by simp [structureValue, hr], fun _ => ⟨g, hg g (Nat.le_refl _), fun he => ⟨?_, ?_, ?_⟩⟩⟩
    · rw [h5 write hwe (by rw [length_put]; omega), put_get_self]; rfl
    · intro q hq hne hlt
      rw [h5 q hq (by rw [length_put]; omega), put_get _ _ _ _ (by omega) hlt]
    · intro p
      rw [(h6 he).1 p, h1 p]
  · exact ⟨f, v, [], 0, by simp [structureValue, hr], fun h => absurd h hv⟩

/-! ## Timestamps -/

theorem kept_any {src : Code} : ∀ f d e j d' e', copyStructure src f d e j = some (d', e') →
    d.length ≤ d'.length ∧ e ≤ e' ∧ ∀ q, q < e → q < d.length → d'[q]? = d[q]? := by
  intro f
  induction f with
  | zero => intro d e j d' e' h; simp [copyStructure] at h
  | succ f ih =>
    intro d e j d' e' h
    have key : ∀ start idx k i d x d' x', copyMembers (copyStructure src f) src idx start k i d x = some (d', x') →
        start + i + k ≤ x →
        d.length ≤ d'.length ∧ x ≤ x' ∧
          ∀ q, q < start + i → q < d.length → d'[q]? = d[q]? := by
      intro start idx k
      induction k with
      | zero =>
        intro i d x d' x' h _
        simp only [copyMembers, Option.some.injEq, Prod.mk.injEq] at h
        obtain ⟨rfl, rfl⟩ := h
        exact ⟨Nat.le_refl _, Nat.le_refl _, fun _ _ _ => rfl⟩
      | succ k ihk =>
        intro i d x d' x' h hx
        simp only [copyMembers] at h
        cases ha : src[idx + i]? with
        | none => rw [ha] at h; simp at h
        | some a =>
          rw [ha] at h
          simp only at h
          by_cases hp : isPtr a = true
          · rw [if_pos hp, Option.bind_eq_some_iff] at h
            obtain ⟨⟨d2, e2⟩, h2, h3⟩ := h
            have hl := length_put d (start + i) (ip x)
            obtain ⟨a1, a2, a3⟩ := ih _ _ _ _ _ h2
            simp only at h3
            obtain ⟨b1, b2, b3⟩ := ihk _ _ _ _ _ h3 (by omega)
            refine ⟨by omega, by omega, fun q hq hlt => ?_⟩
            rw [b3 q (by omega) (by omega), a3 q (by omega) (by omega)]
            exact put_get _ _ _ _ (by omega) hlt
          · rw [if_neg hp] at h
            have hl := length_put d (start + i) a
            obtain ⟨b1, b2, b3⟩ := ihk _ _ _ _ _ h (by omega)
            refine ⟨by omega, b2, fun q hq hlt => ?_⟩
            rw [b3 q (by omega) (by omega)]
            exact put_get _ _ _ _ (by omega) hlt
    rw [copyStructure] at h
    cases hj : src[j]? with
    | none => rw [hj] at h; simp at h
    | some w =>
      rw [hj] at h
      obtain ⟨h1, h2, h3⟩ := key _ _ _ _ _ _ _ _ h (by omega)
      exact ⟨h1, by omega, fun q hq hl => h3 q (by omega) hl⟩

theorem ts_facts : isPtr timestamp = false ∧ count timestamp = 2 := by decide

/-- The copy of a timestamp is read word by word. -/
theorem copy_time (t : BitVec 64) (f : Nat) :
    copyStructure (timeValue t) (f + 1) [] 0 0 =
      (if isPtr (hi32 t) then
        (copyStructure (timeValue t) f [timestamp, ip 3] 3 (ix (hi32 t)))
      else some ([timestamp, hi32 t], 3)).bind fun r =>
        if isPtr (lo32 t) then copyStructure (timeValue t) f (put r.1 2 (ip r.2)) r.2 (ix (lo32 t))
        else some (put r.1 2 (lo32 t), r.2) := by
  have e0 : put [] 0 timestamp = [timestamp] := by decide
  have e1 : ∀ w, put [timestamp] 1 w = [timestamp, w] := fun w => by simp [put, grow]
  simp only [copyStructure, timeValue, List.getElem?_cons_zero, ts_facts.2, copyMembers, Nat.zero_add,
    List.getElem?_cons_succ, ts_facts.1, Bool.false_eq_true, if_false, e0, e1, Nat.reduceAdd]
  by_cases h1 : isPtr (hi32 t) = true
  · simp only [h1, if_true]
    congr 1; funext r
    by_cases h2 : isPtr (lo32 t) = true
    · simp only [h2, if_true]
      cases copyStructure _ f (put r.1 2 (ip r.2)) r.2 (ix (lo32 t)) <;> rfl
    · simp only [h2, if_false, Bool.false_eq_true]
  · simp only [h1, if_false, Bool.false_eq_true, Option.bind_some]
    by_cases h2 : isPtr (lo32 t) = true
    · simp only [h2, if_true]
      cases copyStructure _ f (put [timestamp, hi32 t] 2 (ip 3)) 3 (ix (lo32 t)) <;> rfl
    · simp only [h2, if_false, Bool.false_eq_true]

theorem src3 (t : BitVec 64) (f : Nat) (d : Code) (e : Nat) : copyStructure (timeValue t) f d e 3 = none := by
  cases f <;> simp [copyStructure, timeValue]

theorem ix3 : ix (ip 3) = 3 := by decide

/-- Instants that can be copied: neither half of the number has the leading byte of a pointer. -/
theorem time_copied_iff (t : BitVec 64) :
    (∃ f, structureValue f (timeValue t) 0 = some (timeValue t)) ↔
      isPtr (hi32 t) = false ∧ isPtr (lo32 t) = false := by
  constructor
  · rintro ⟨f, hf⟩
    cases f with
    | zero => simp [structureValue, copyStructure] at hf
    | succ f =>
      simp only [structureValue, copy_time] at hf
      by_cases h1 : isPtr (hi32 t) = true
      · exfalso
        rw [if_pos h1] at hf
        cases hr : copyStructure (timeValue t) f [timestamp, ip 3] 3 (ix (hi32 t)) with
        | none => rw [hr] at hf; simp at hf
        | some r =>
          obtain ⟨d1, e1⟩ := r
          obtain ⟨a1, a2, a3⟩ := kept_any _ _ _ _ _ _ hr
          have hw : d1[1]? = some (ip 3) := by rw [a3 1 (by omega) (by simp)]; rfl
          have key : ∀ d2 : Code, d2[1]? = some (ip 3) → (timeValue t = d2 → ip 3 = hi32 t) := by
            intro d2 h2 he; rw [← he] at h2; simpa [timeValue, eq_comm] using h2
          have fin : ip 3 = hi32 t := by
            rw [hr, Option.bind_some] at hf
            simp only at hf
            by_cases h2 : isPtr (lo32 t) = true
            · rw [if_pos h2, Option.map_eq_some_iff] at hf
              obtain ⟨⟨d2, e2⟩, hr2, he⟩ := hf
              obtain ⟨b1, b2, b3⟩ := kept_any _ _ _ _ _ _ hr2
              refine key d2 ?_ he.symm
              rw [b3 1 (by omega) (by rw [length_put]; simp at a1; omega)]
              rw [put_get _ _ _ _ (by omega) (by simp at a1; omega), hw]
            · rw [if_neg h2, Option.map_some, Option.some.injEq] at hf
              refine key _ ?_ hf.symm
              simp only
              rw [put_get _ _ _ _ (by omega) (by simp at a1; omega), hw]
          rw [← fin, ix3, src3] at hr
          simp at hr
      · refine ⟨by simpa using h1, ?_⟩
        rw [if_neg h1, Option.bind_some] at hf
        simp only at hf
        by_contra h2
        have h2 : isPtr (lo32 t) = true := by simpa using h2
        rw [if_pos h2, Option.map_eq_some_iff] at hf
        obtain ⟨⟨d2, e2⟩, hr2, he⟩ := hf
        obtain ⟨b1, b2, b3⟩ := kept_any _ _ _ _ _ _ hr2
        have : d2[2]? = some (ip 3) := by
          rw [b3 2 (by omega) (by rw [length_put]; simp), put_get_self]
        simp only at he
        rw [he] at this
        have fin : lo32 t = ip 3 := by simpa [timeValue] using this
        rw [fin, ix3, src3] at hr2
        simp at hr2
  · rintro ⟨h1, h2⟩
    refine ⟨1, ?_⟩
    simp only [structureValue, copy_time, h1, h2, Bool.false_eq_true, if_false, Option.bind_some, Option.map_some]
    simp [timeValue, put, grow]

/-- C76 for instants: a value bound to an instant (microseconds since 1970, before the year 4254) is copied
unless the 24 to 31st bits of the number are 0x84: for 16.8 seconds out of every 71.6 minutes. -/
theorem C76_instants (t : BitVec 64) (hy : t.toNat < 2 ^ 56) :
    (∃ f, structureValue f (timeValue t) 0 = some (timeValue t)) ↔ t.toNat / 2 ^ 24 % 256 ≠ 132 := by
  have hhi : isPtr (hi32 t) = false := by
    rw [← Bool.not_eq_true, isPtr_iff, ← BitVec.toNat_inj, getDescriptor_toNat]
    have : (hi32 t).toNat = t.toNat / 2 ^ 32 := by
      unfold hi32
      rw [BitVec.toNat_setWidth, BitVec.toNat_ushiftRight, Nat.shiftRight_eq_div_pow]
      omega
    rw [this]
    show ¬ _ = 132
    omega
  have hlo : isPtr (lo32 t) = true ↔ t.toNat / 2 ^ 24 % 256 = 132 := by
    rw [isPtr_iff, ← BitVec.toNat_inj, getDescriptor_toNat]
    have : (lo32 t).toNat = t.toNat % 2 ^ 32 := by
      unfold lo32
      rw [BitVec.toNat_setWidth, BitVec.toNat_and]
      have : BitVec.toNat (0x00000000FFFFFFFF : BitVec 64) = 2 ^ 32 - 1 := by decide
      rw [this, Nat.and_two_pow_sub_one_eq_mod]
      omega
    rw [this]
    show _ = 132 ↔ _
    omega
  rw [time_copied_iff]
  rw [← Bool.not_eq_true (isPtr (lo32 t)), hlo]
  simp [hhi]

/-- C76 fails: the copy of an instant in 2023 is 16.8 seconds earlier; the copy of another one, 16.8 seconds
before, never ends. -/
theorem C76_copies_violated : ¬ C76_full ∧
    structureValue 2 (timeValue 0x000608F084FFF001) 0 = some (timeValue 0x000608F084000003 ++ [0x000608F0]) ∧
    (∀ f, structureValue f (timeValue 0x000608F084000000) 0 = none) := by
  have hn : ∀ f d e, copyStructure (timeValue 0x000608F084000000) f d e 0 = none := by
    intro f
    induction f with
    | zero => intro d e; rfl
    | succ f ih =>
      intro d e
      have h0 : (timeValue 0x000608F084000000)[0]? = some timestamp := by decide
      have h1 : (timeValue 0x000608F084000000)[1]? = some 0x000608F0 := by decide
      have h2 : (timeValue 0x000608F084000000)[2]? = some 0x84000000 := by decide
      have p1 : isPtr 0x000608F0 = false := by decide
      have p2 : isPtr 0x84000000 = true := by decide
      have x2 : ix 0x84000000 = 0 := by decide
      simp only [copyStructure, h0, ts_facts.2, copyMembers, Nat.zero_add, h1, h2, ts_facts.1, p1, p2, x2, ih,
        Nat.reduceAdd, Bool.false_eq_true, if_false, if_true, Option.bind_none]
  have hn' : ∀ f, structureValue f (timeValue 0x000608F084000000) 0 = none := by
    intro f
    simp only [structureValue, hn, Option.map_none]
  refine ⟨fun H => ?_, by decide, hn'⟩
  obtain ⟨f, d', e', h, -⟩ := H (timeValue 0x000608F084000000) 0
    (Whole.mk (h := timestamp) (by decide) (by decide) (by decide) (fun h => absurd h (by decide))) [] 0
  rw [hn] at h
  simp at h

/-- A structure with a set and a timestamp inside. -/
def sample : Code :=
  [nil, object 7 3, float 0, iPointer 5, iPointer 8, set 2, float 2, nil, timestamp, 0x000608F0, 0x12345678]

theorem sample_set : Whole sample 5 ∧ Plain sample 5 := by
  have hm : ∀ k w, 1 ≤ k → k ≤ count (set 2) → sample[5 + k]? = some w → getDescriptor w = 0x84 → False := by
    intro k w h1 h2 hw
    have : count (set 2) = 2 := by decide
    rcases (by omega : k = 1 ∨ k = 2) with rfl | rfl
    · obtain rfl : float 2 = w := by simpa [sample] using hw
      decide
    · obtain rfl : nil = w := by simpa [sample] using hw
      decide
  exact ⟨Whole.mk (h := set 2) (by decide) (by decide) (by decide) (fun _ k w h1 h2 hw hd => (hm k w h1 h2 hw hd).elim),
    Plain.mk (h := set 2) (by decide) (fun h => absurd h (by decide))
      (fun _ k w h1 h2 hw hd => (hm k w h1 h2 hw hd).elim)⟩

theorem sample_time : Whole sample 8 ∧ Plain sample 8 := by
  refine ⟨Whole.mk (h := timestamp) (by decide) (by decide) (by decide) (fun h => absurd h (by decide)),
    Plain.mk (h := timestamp) (by decide) ?_ (fun h => absurd h (by decide))⟩
  intro _ k w h1 h2 hw
  have : count timestamp = 2 := by decide
  rcases (by omega : k = 1 ∨ k = 2) with rfl | rfl
  · obtain rfl : (0x000608F0 : Word) = w := by simpa [sample] using hw
    decide
  · obtain rfl : (0x12345678 : Word) = w := by simpa [sample] using hw
    decide

/-- The hypotheses of `C76_copies_partial` and `C76_carried_partial` hold for a structure with members of both
kinds; the copy lies behind the code it is added to. -/
theorem C76_nonvacuous : (Whole sample 1 ∧ Plain sample 1) ∧
    copyStructure sample 3 [nil, nil] 2 1 = some ([nil, nil, object 7 3, float 0, iPointer 6, iPointer 9,
      set 2, float 2, nil, timestamp, 0x000608F0, 0x12345678], 12) ∧
    look sample 1 [3, 2] = some (.word 0x12345678) := by
  have hm : ∀ k w, 1 ≤ k → k ≤ count (object 7 3) → sample[1 + k]? = some w → getDescriptor w = 0x84 →
      (asIndex w).toNat = 5 ∨ (asIndex w).toNat = 8 := by
    intro k w h1 h2 hw
    have : count (object 7 3) = 3 := by decide
    rcases (by omega : k = 1 ∨ k = 2 ∨ k = 3) with rfl | rfl | rfl
    · obtain rfl : float 0 = w := by simpa [sample] using hw
      decide
    · obtain rfl : iPointer 5 = w := by simpa [sample] using hw
      decide
    · obtain rfl : iPointer 8 = w := by simpa [sample] using hw
      decide
  refine ⟨⟨Whole.mk (h := object 7 3) (by decide) (by decide) (by decide) ?_,
    Plain.mk (h := object 7 3) (by decide) (fun h => absurd h (by decide)) ?_⟩, by decide, by decide⟩
  · intro _ k w h1 h2 hw hd
    rcases hm k w h1 h2 hw hd with h | h <;> rw [h]
    · exact sample_set.1
    · exact sample_time.1
  · intro _ k w h1 h2 hw hd
    rcases hm k w h1 h2 hw hd with h | h <;> rw [h]
    · exact sample_set.2
    · exact sample_time.2

end Verif.Values
