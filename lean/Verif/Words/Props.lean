import Verif.Words.Lemmas
/-!
# Properties C06 (times in code) and C07 (strings in code)
-/
namespace Verif.Words
open Verif.Atom

/-! ## C06 -/

/-- `c'` is `c` with the three-word time structure for `v` at `i`, and nothing else changed. -/
def HoldsTimeAt (c c' : Code) (i : Nat) (tagWord : Word) (v : BitVec 64) : Prop :=
  c'.length = max c.length (i + 3) ∧ get c' i = some tagWord ∧ getInt64 c' (i + 1) = some v ∧
  ∀ j, j < c.length → j < i ∨ i + 2 < j → get c' j = get c j

theorem place_time (c : Code) (i : Nat) (w : Word) (v : BitVec 64) :
    ∃ c', setInt64 (put (put c i w) (i + 2) 0) (i + 1) v = some c' ∧ HoldsTimeAt c c' i w v := by
  obtain ⟨c', hc'⟩ := setInt64_isSome (put (put c i w) (i + 2) 0) (i + 1) v
    (by rw [length_put, length_put]; omega)
  refine ⟨c', hc', ?_⟩
  obtain ⟨h1, h2, h3, h4⟩ := setInt64_spec hc'
  refine ⟨?_, ?_, getInt64_of h2 h3, ?_⟩
  · rw [h1, length_put, length_put]; omega
  · rw [get, h4 i (by omega) (by omega), put_get _ _ _ _ (by omega) (by rw [length_put]; omega),
      put_get_self]
  · intro j hj hcase
    rw [get, h4 j (by omega) (by omega), put_get _ _ _ _ (by omega) (by rw [length_put]; omega),
      put_get _ _ _ _ (by omega) hj, get]

/-- C06: a timestamp structure written at any index of any object holds that timestamp; the rest
of the object is unchanged (the object grows if needed). -/
theorem C06_timestamp_struct (c : Code) (i : Nat) (v : BitVec 64) :
    ∃ c', setTimestampStruct c i v = some c' ∧ HoldsTimeAt c c' i timestamp v :=
  place_time c i timestamp v

theorem target_eq (c : Code) (index : Nat) (a : Word) (h : get c index = some a) :
    target c index = (asIndex a).toNat ∧ grow c (index + 1) = c := by
  have hlt : index < c.length := (List.getElem?_eq_some_iff.mp h).1
  have : grow c (index + 1) = c := by
    simp only [grow, show index + 1 - c.length = 0 by omega, List.replicate_zero, List.append_nil]
  refine ⟨?_, this⟩
  rw [target, this, List.getD_eq_getElem?_getD]
  simp only [get] at h
  rw [h]; rfl

/-- C06: writing a timestamp through an internal pointer and reading it through the same pointer
returns it, provided the pointer word is not itself inside the structure. -/
theorem C06_timestamp_indirect (c : Code) (index : Nat) (p : BitVec 16) (v : BitVec 64)
    (hp : get c index = some (iPointer p)) (hfit : p.toNat < 4096)
    (hout : index < p.toNat ∨ p.toNat + 2 < index) :
    ∃ c', setTimestamp c index v = some c' ∧ getTime c' index = some v ∧
      hasTimestamp c' index = true ∧ HoldsTimeAt c c' p.toNat timestamp v := by
  have hidx : (asIndex (iPointer p)).toNat = p.toNat := by
    rw [asIndex_toNat, iPointer, ptr_toNat]; omega
  obtain ⟨ht, hg⟩ := target_eq c index _ hp
  rw [hidx] at ht
  obtain ⟨c', hc', hh⟩ := place_time c p.toNat timestamp v
  have hlt : index < c.length := (List.getElem?_eq_some_iff.mp hp).1
  refine ⟨c', ?_, ?_, ?_, hh⟩
  · simp only [setTimestamp, ht, hg]; exact hc'
  · obtain ⟨_, _, h3, h4⟩ := hh
    simp only [getTime, h4 index hlt hout, hp]
    show getInt64 c' ((asIndex (iPointer p)).toNat + 1) = some v
    rw [hidx, h3]
  · obtain ⟨h1, h2, _, h4⟩ := hh
    have hd : getDescriptor (iPointer p) = 0x84 := by
      apply BitVec.eq_of_toNat_eq
      rw [getDescriptor_toNat, iPointer, ptr_toNat]
      simp only [Ty.num, Ty.code]
      simp
      omega
    simp only [hasTimestamp, h4 index hlt hout, hp, h1, hidx, hd]
    rw [if_neg (by omega), if_neg (by simp), if_neg (by omega), h2]
    decide

/-- C06: the same for durations. -/
theorem C06_duration_indirect (c : Code) (index : Nat) (p : BitVec 16) (v : BitVec 64)
    (hp : get c index = some (iPointer p)) (hfit : p.toNat < 4096)
    (hout : index < p.toNat ∨ p.toNat + 2 < index) :
    ∃ c', setDuration c index v = some c' ∧ getTime c' index = some v ∧
      HoldsTimeAt c c' p.toNat duration v := by
  have hidx : (asIndex (iPointer p)).toNat = p.toNat := by
    rw [asIndex_toNat, iPointer, ptr_toNat]; omega
  obtain ⟨ht, hg⟩ := target_eq c index _ hp
  rw [hidx] at ht
  obtain ⟨c', hc', hh⟩ := place_time c p.toNat duration v
  have hlt : index < c.length := (List.getElem?_eq_some_iff.mp hp).1
  refine ⟨c', ?_, ?_, hh⟩
  · simp only [setDuration, ht, hg]; exact hc'
  · obtain ⟨_, _, h3, h4⟩ := hh
    simp only [getTime, h4 index hlt hout, hp]
    show getInt64 c' ((asIndex (iPointer p)).toNat + 1) = some v
    rw [hidx, h3]

/-- C06 for duration structures, as documented ("expands object->code to allocate atoms",
utils.h:252). -/
def C06_duration_struct_full : Prop :=
  ∀ c i v, ∃ c', setDurationStruct c i v = some c' ∧ HoldsTimeAt c c' i duration v

/-- C06 is violated by the in-place duration writer: it truncates an object that already has code
behind the duration. -/
theorem C06_duration_struct_violated : ¬ C06_duration_struct_full ∧
    setDurationStruct [1, 2, 3, 4, 5] 0 7 = some [duration, 0, 7] := by
  have h : setDurationStruct [1, 2, 3, 4, 5] 0 7 = some [duration, 0, 7] := by decide
  refine ⟨fun hf => ?_, h⟩
  obtain ⟨c', h1, h2⟩ := hf [1, 2, 3, 4, 5] 0 7
  rw [h] at h1
  obtain rfl := Option.some.inj h1
  exact absurd h2.1 (by decide)

/-- C06 for duration structures, the part that holds (missing: objects with code behind the
structure, which is cut off): the duration is always stored and everything before it is kept. -/
theorem C06_duration_struct_partial (c : Code) (i : Nat) (v : BitVec 64) :
    ∃ c', setDurationStruct c i v = some c' ∧ get c' i = some duration ∧
      getInt64 c' (i + 1) = some v ∧ (∀ j, j < c.length → j < i → get c' j = get c j) ∧
      (c.length ≤ i + 3 → HoldsTimeAt c c' i duration v) := by
  have hl : (resize c (i + 3)).length = i + 3 := by
    simp [resize, length_grow]; omega
  obtain ⟨c', hc'⟩ := setInt64_isSome (put (resize c (i + 3)) i duration) (i + 1) v
    (by rw [length_put, hl]; omega)
  obtain ⟨h1, h2, h3, h4⟩ := setInt64_spec hc'
  have hget : ∀ j, j < c.length → j < i + 3 → (resize c (i + 3))[j]? = c[j]? := by
    intro j hj hj3
    rw [resize, List.getElem?_take, if_pos hj3, grow_get _ _ _ hj]
  have hkeep : ∀ j, j < c.length → j < i → get c' j = get c j := by
    intro j hj hji
    rw [get, h4 j (by omega) (by omega), put_get _ _ _ _ (by omega) (by omega),
      hget j hj (by omega), get]
  have hi : get c' i = some duration := by
    rw [get, h4 i (by omega) (by omega), put_get_self]
  refine ⟨c', hc', hi, getInt64_of h2 h3, hkeep, fun hc => ⟨?_, hi, getInt64_of h2 h3, ?_⟩⟩
  · rw [h1, length_put, hl]; omega
  · intro j hj hcase
    exact hkeep j hj (by omega)

/-- A non-trivial instance: a fact whose third word points behind its own code. -/
example : get [object 7 4, rPointer 0, iPointer 4, nil] 2 = some (iPointer 4) ∧
    (4 : BitVec 16).toNat < 4096 ∧ 2 < (4 : BitVec 16).toNat := ⟨rfl, by decide, by decide⟩

/-! ## C07 -/

/-- C07 as one would expect it: any string of up to 255 bytes. -/
def C07_full : Prop := ∀ s : List (BitVec 8), s.length ≤ 255 → getString (setString s) = some s

/-- C07 is violated in three ways: a two-byte UTF-8 character comes back corrupted (its first
byte is sign-extended over the second), an embedded zero byte ends the string, and a string of
255 characters overruns the read buffer. -/
theorem C07_string_round_trip_violated : ¬ C07_full ∧
    getString (setString [0xC3, 0xA9]) = some [0xC3, 0xFF] ∧
    getString (setString [0x61, 0, 0x62]) = some [0x61] ∧
    (∀ s : List (BitVec 8), s.length = 255 → getString (setString s) = none) := by
  have h : getString (setString [0xC3, 0xA9]) = some [0xC3, 0xFF] := by decide
  refine ⟨fun hf => ?_, h, by decide, ?_⟩
  · have := hf [0xC3, 0xA9] (by decide)
    rw [h] at this; exact absurd this (by decide)
  · intro s hs
    rw [setString_short s (by omega)]
    have hd : (getDeviceID (string (BitVec.ofNat 8 s.length))).toNat = 255 := by
      rw [hs]; decide
    simp only [getString, hd]
    split
    · rfl
    · rfl

/-- C07, the part that holds (missing: bytes above 127, zero bytes, length 255): ASCII strings of
up to 254 characters read back unchanged, and the header announces exactly the words written. -/
theorem C07_string_round_trip_partial (s : List (BitVec 8)) (hl : s.length ≤ 254)
    (ha : ∀ b ∈ s, b ≠ 0 ∧ b.toNat < 128) :
    getString (setString s) = some s ∧
    ∃ h ws, setString s = h :: ws ∧ (getAtomCount h).toNat = ws.length ∧
      ws.length = (s.length + 3) / 4 := by
  have hmsb : ∀ b ∈ s, b.msb = false := by
    intro b hb
    have := (ha b hb).2
    rw [BitVec.msb_eq_false_iff_two_mul_lt]; omega
  obtain ⟨h1, h2, h3⟩ := packed_bytes s hmsb
  have hlen : (BitVec.ofNat 8 s.length).toNat = s.length := by simp; omega
  have hd : (getDeviceID (string (BitVec.ofNat 8 s.length))).toNat = s.length := by
    have := string_toNat (BitVec.ofNat 8 s.length)
    rw [getDeviceID_toNat, this, hlen]; omega
  constructor
  · rw [setString_short s (by omega)]
    simp only [getString, hd]
    rw [if_neg (by omega), if_neg (by omega), h1, cString, takeWhile_all]
    intro x hx
    simpa using (ha x hx).1
  · refine ⟨_, _, setString_short s (by omega), ?_, h2⟩
    rw [h2]
    have hb := stringBlocks_toNat (BitVec.ofNat 8 s.length)
    have hw := string_toNat (BitVec.ofNat 8 s.length)
    rw [hlen] at hb hw
    have hdesc : getDescriptor (string (BitVec.ofNat 8 s.length)) = 0xC6 := by
      apply BitVec.eq_of_toNat_eq
      rw [getDescriptor_toNat, hw]
      simp only [BitVec.ofNat_eq_ofNat, BitVec.toNat_ofNat]; omega
    have : getAtomCount (string (BitVec.ofNat 8 s.length)) =
        getClassID (string (BitVec.ofNat 8 s.length)) := by
      simp [getAtomCount, hdesc, getClassID]
    rw [this, getClassID_toNat]; omega

example : ∀ b ∈ ([0x68, 0x65, 0x6C, 0x6C, 0x6F] : List (BitVec 8)), b ≠ 0 ∧ b.toNat < 128 := by
  decide

end Verif.Words
