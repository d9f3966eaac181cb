import Verif.Atom.Lemmas
/-!
# Properties C01, C02, C04, C05 (code words)

Vocabulary: `Verif.Atom.Spec` (`Val`, `store`, `load`, `fit`, `Fits`).
-/
namespace Verif.Atom

/-! ## C01 -/

/-- C01: every value stored and read back through the accessors of its kind is the value with
each field reduced to its documented width. -/
theorem C01_stored_fields_survive (v : Val) : load (store v) = some (fit v) := load_store v

/-- C01: a value whose fields fit is read back unchanged. -/
theorem C01_fitting_value_unchanged (v : Val) (h : Fits v) : load (store v) = some v := by
  rw [load_store, fit_of_Fits h]

/-- C01: the number of 4-character blocks of a string word is the number of words needed. -/
theorem C01_string_blocks (n : BitVec 8) :
    (getAtomCount (string n)).toNat = (n.toNat + 3) / 4 := by
  have hn := n.isLt
  have hw := string_toNat n
  have hb := stringBlocks_toNat n
  obtain ⟨_, h2⟩ := taggedN 0xC6 (string n) ((stringBlocks n).toNat * 256 + n.toNat)
    (hw.trans (by omega)) (by omega) (by omega)
  have hd : getDescriptor (string n) = 0xC6 := BitVec.eq_of_toNat_eq h2
  have : getAtomCount (string n) = getClassID (string n) := by
    simp [getAtomCount, hd, getClassID]
  rw [this, getClassID_toNat]; omega

/-- C01: the words of timestamps and durations announce two data words. -/
theorem C01_time_words : getAtomCount timestamp = 2 ∧ getAtomCount duration = 2 := by decide

/-- Non-trivial instances of the hypothesis. -/
example : Fits (.inObj 200 4095) ∧ Fits (.struct_ .cst 4095 255) ∧ Fits (.codeVL 17 4095) := by
  simp [Fits]

/-! ## C02 -/

/-- C02: two stored values share a word only if they agree up to the documented field widths (in
particular they are of the same kind). -/
theorem C02_no_collision (v w : Val) (h : store v = store w) : fit v = fit w := by
  have := congrArg load h
  rw [load_store, load_store] at this
  exact Option.some.inj this

/-- C02: fitting values are stored injectively. -/
theorem C02_injective (v w : Val) (hv : Fits v) (hw : Fits w) (h : store v = store w) : v = w := by
  have := C02_no_collision v w h
  rwa [fit_of_Fits hv, fit_of_Fits hw] at this

/-- Whether a value is a number. -/
def Val.isNumber : Val → Bool
  | .number _ => true
  | _ => false

/-- C02: exactly the numbers read as numbers. -/
theorem C02_number_iff (v : Val) : isFloat (store v) = v.isNumber := by
  cases hn : v.isNumber
  · cases hf : isFloat (store v)
    · rfl
    · have h := load_store v
      simp only [load, hf, if_true, Option.some.injEq] at h
      cases v <;> simp [fit, Val.isNumber] at h hn
  · cases v <;> simp [Val.isNumber] at hn
    rename_i f
    have := float_toNat f
    have := f.isLt
    rw [isFloat_eq, decide_eq_true_eq]
    simp only [store]
    omega

/-- C02: every word of the number half of the space is the word of some number, so a word is
either a number or carries a tag. -/
theorem C02_number_words (a : Word) :
    isFloat a = true ↔ ∃ f, store (.number f) = a := by
  constructor
  · intro h
    refine ⟨asFloat a, ?_⟩
    have ha := a.isLt
    rw [isFloat_eq] at h
    simp only [decide_eq_true_eq] at h
    apply BitVec.eq_of_toNat_eq
    simp only [store]
    rw [float_toNat, asFloat_toNat]
    omega
  · rintro ⟨f, rfl⟩
    rw [C02_number_iff]; rfl

/-- The structural kinds: those followed by member words (or, for `nullProgram`, in that tag
range). -/
def Val.isStructure : Val → Bool
  | .cPointer _ | .set _ | .struct_ _ _ _ | .string _ | .timestamp | .duration
  | .nullProgram _ => true
  | _ => false

theorem and_top (a : Word) : a &&& 0xC0000000#32 = (a >>> 30) <<< 30 := by
  apply BitVec.eq_of_getLsbD_eq
  intro i hi
  have h30 : ∀ i : Fin 32, (0xC0000000#32).getLsbD i.val = decide (30 ≤ i.val) := by decide
  have := h30 ⟨i, hi⟩
  simp only at this
  rw [BitVec.getLsbD_and, this, BitVec.getLsbD_shiftLeft, BitVec.getLsbD_ushiftRight]
  rcases Nat.lt_or_ge i 30 with h | h
  · simp [h]
  · have e : 30 + (i - 30) = i := by omega
    simp [hi, e, Nat.not_lt.mpr h, h]

theorem isStructural_eq (a : Word) : isStructural a = decide (0xC0000000 ≤ a.toNat) := by
  have ha := a.isLt
  have h1 : ((a &&& 0xC0000000#32) == 0xC0000000#32) = decide (0xC0000000 ≤ a.toNat) := by
    rw [Bool.eq_iff_iff, beq_iff_eq, decide_eq_true_eq, and_top, ← BitVec.toNat_inj]
    simp only [BitVec.toNat_shiftLeft, BitVec.toNat_ushiftRight, Nat.shiftLeft_eq,
      Nat.shiftRight_eq_div_pow, BitVec.toNat_ofNat]
    omega
  have h2 : (a &&& 0xD0000000#32) = 0xD0000000#32 → (a &&& 0xC0000000#32) = 0xC0000000#32 := by
    intro h
    have : (a &&& 0xD0000000#32) &&& 0xC0000000#32 = 0xD0000000#32 &&& 0xC0000000#32 := by rw [h]
    rw [BitVec.and_assoc] at this
    exact this
  rw [← h1]
  show (_ || (a &&& 0xD0000000#32) == 0xD0000000#32) = _
  cases hx : ((a &&& 0xD0000000#32) == 0xD0000000#32)
  · simp
  · have := h2 (by simpa using hx)
    simp [this]

theorem C02_structure_iff (v : Val) : isStructural (store v) = v.isStructure := by
  have hl := load_store v
  have hd : ∀ w : Word, isStructural w = (!isFloat w && decide (0xC0 ≤ (getDescriptor w).toNat)) := by
    intro w
    rw [isStructural_eq, isFloat_eq, getDescriptor_toNat]
    rw [Bool.eq_iff_iff]
    simp only [Bool.and_eq_true, Bool.not_eq_true', decide_eq_true_eq, decide_eq_false_iff_not]
    omega
  rw [hd, C02_number_iff]
  have key : ∀ w u, load w = some u → isFloat w = false →
      decide (0xC0 ≤ (getDescriptor w).toNat) = u.isStructure := by
    intro w u h hf
    simp only [load, hf, Bool.false_eq_true, if_false] at h
    generalize (getDescriptor w).toNat = d at h ⊢
    split at h <;> first
      | (simp only [Option.some.injEq] at h; subst h; simp [Val.isStructure])
      | simp at h
  cases hn : v.isNumber
  · rw [key _ _ hl (by rw [C02_number_iff, hn])]
    cases v <;> simp [Val.isNumber] at hn <;> rfl
  · cases v <;> simp [Val.isNumber] at hn
    rfl

/-- C02: node words are of their own kind and distinct nodes have distinct words. -/
theorem C02_node_words (n : BitVec 8) :
    (∀ v, store v ≠ node n) ∧ (∀ m, node n = node m → n = m) := by
  have hn := n.isLt
  have hw := node_toNat n
  obtain ⟨h1, h2⟩ := taggedN 0xA0 (node n) _ hw (by omega) (by omega)
  constructor
  · intro v hv
    have := load_store v
    rw [hv] at this
    simp only [load, h1, h2, Bool.false_eq_true, if_false] at this
    simp at this
  · intro m hm
    have := node_toNat m
    rw [hm] at hw
    exact BitVec.eq_of_toNat_eq (by omega)

example : store (.pointer .vl 5) ≠ store (.pointer .i 5) := by decide

/-! ## C04 -/

/-- The constants the header calls undefined values. -/
def undefinedValues : List Word :=
  [undefinedFloat, undefinedBoolean, undefinedNode, undefinedDevice, undefinedDeviceFunction,
   undefinedString, undefinedTimestamp]

/-- C04 as documented (atom.h:250, "returns true for all undefined values"). -/
def C04_full : Prop := ∀ a ∈ undefinedValues, readsAsNil a = true

/-- C04 is violated: the undefined float and the undefined timestamp do not read as nil; the
undefined float is moreover the word of an ordinary finite number. -/
theorem C04_undefined_reads_as_nil_violated :
    ¬ C04_full ∧ readsAsNil undefinedFloat = false ∧ readsAsNil undefinedTimestamp = false ∧
    undefinedFloat = store (.number 0x1FFFFFFE) := by
  refine ⟨fun h => ?_, by decide, by decide, by decide⟩
  exact absurd (h undefinedFloat (by decide)) (by decide)

/-- C04, the part that holds (missing: undefined float and undefined timestamp): the other
undefined values read as nil, and among ordinary values exactly nil, the empty set, one NaN
pattern and the device 255.255.255 do. -/
theorem C04_undefined_reads_as_nil_partial :
    (∀ a ∈ undefinedValues, a ≠ undefinedFloat → a ≠ undefinedTimestamp →
      readsAsNil a = true) ∧
    (∀ v, readsAsNil (store v) = true ↔
      v = .nil ∨ v = .set 0 ∨ v = .number 0x7FFFFFFE ∨ v = .number 0x7FFFFFFF ∨
      v = .device 255 255 255) := by
  refine ⟨?_, fun v => ?_⟩
  · intro a ha h1 h2
    simp only [undefinedValues, List.mem_cons, List.not_mem_nil, or_false] at ha
    rcases ha with rfl | rfl | rfl | rfl | rfl | rfl | rfl <;> first | contradiction | decide
  have hl := load_store v
  constructor
  · intro h
    simp only [readsAsNil, Bool.or_eq_true, beq_iff_eq] at h
    rcases h with ((((((h | h) | h) | h) | h) | h) | h) | h <;> rw [h] at hl
    · have : load 0x80000000 = some .nil := by decide
      rw [this] at hl; left
      cases v <;> simp [fit] at hl ⊢
    · have : load 0x3FFFFFFF = some (.number 0x7FFFFFFE) := by decide
      rw [this] at hl; right; right
      cases v <;> simp [fit] at hl
      rename_i f
      have hf := f.isLt
      have e := congrArg BitVec.toNat hl
      simp only [BitVec.toNat_ofNat] at e
      have : f.toNat = 0x7FFFFFFE ∨ f.toNat = 0x7FFFFFFF := by omega
      rcases this with h | h
      · left; rw [Val.number.injEq]; exact BitVec.eq_of_toNat_eq h
      · right; left; rw [Val.number.injEq]; exact BitVec.eq_of_toNat_eq h
    · exfalso
      have h1 : load 0x81FFFFFF = some (.boolean true) := by decide
      rw [h1] at hl
      cases v <;> simp [fit] at hl
      subst hl; revert h; decide
    · have : load 0xC1000000 = some (.set 0) := by decide
      rw [this] at hl; right; left
      cases v <;> simp [fit] at hl ⊢
      exact hl.symm
    · exfalso
      have h1 : load 0xA0FFFFFF = none := by decide
      rw [h1] at hl; exact absurd hl (by simp)
    · have : load 0xA1FFFFFF = some (.device 255 255 255) := by decide
      rw [this] at hl; right; right; right; right
      cases v <;> simp [fit] at hl ⊢
      obtain ⟨rfl, rfl, rfl⟩ := hl; trivial
    · exfalso
      have h1 : load 0xA2FFFFFF = some (.deviceFunction 0xFFF) := by decide
      rw [h1] at hl
      cases v <;> simp [fit] at hl
      rename_i o
      have e := congrArg BitVec.toNat h
      simp only [store] at e
      rw [deviceFunction_toNat] at e
      simp only [BitVec.ofNat_eq_ofNat, BitVec.toNat_ofNat] at e
      omega
    · exfalso
      have h1 : load 0xC6FFFFFF = some (.string 255) := by decide
      rw [h1] at hl
      cases v <;> simp [fit] at hl
      subst hl; revert h; decide
  · rintro (rfl | rfl | rfl | rfl | rfl) <;> decide

/-! ## C05 -/

/-- C05 as documented (atom.h:258, "applicable to nodes and devices"). -/
def C05_full : Prop :=
  (∀ n, getNodeID (node n) = n) ∧ (∀ n c d, getNodeID (device n c d) = n)

/-- C05 is violated: every node word decodes to node 0. -/
theorem C05_node_id_violated : ¬ C05_full ∧ ∀ n, getNodeID (node n) = 0 := by
  have h : ∀ n, getNodeID (node n) = 0 := by
    intro n
    have hn := n.isLt
    apply BitVec.eq_of_toNat_eq
    rw [getNodeID_toNat, node_toNat]
    simp only [BitVec.ofNat_eq_ofNat, BitVec.toNat_ofNat]
    omega
  refine ⟨fun hf => ?_, h⟩
  have := hf.1 1
  rw [h] at this
  exact absurd this (by decide)

/-- C05, the part that holds (missing: node words): all three parts of a device address
survive. -/
theorem C05_node_id_partial (n c d : BitVec 8) :
    getNodeID (device n c d) = n ∧ getClassID (device n c d) = c ∧
    getDeviceID (device n c d) = d := by
  have hn := n.isLt
  have hc := c.isLt
  have hd := d.isLt
  have hw := device_toNat n c d
  refine ⟨BitVec.eq_of_toNat_eq ?_, BitVec.eq_of_toNat_eq ?_, BitVec.eq_of_toNat_eq ?_⟩
  · rw [getNodeID_toNat]; omega
  · rw [getClassID_toNat]; omega
  · rw [getDeviceID_toNat]; omega

end Verif.Atom
