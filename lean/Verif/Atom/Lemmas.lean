import Verif.Atom.Spec
/-! Proof internals for the code-word model. -/
namespace Verif.Atom

theorem and12 (n : Nat) : n &&& 4095 = n % 4096 := Nat.and_two_pow_sub_one_eq_mod n 12
theorem and8 (n : Nat) : n &&& 255 = n % 256 := Nat.and_two_pow_sub_one_eq_mod n 8
theorem and1 (n : Nat) : n &&& 1 = n % 2 := Nat.and_two_pow_sub_one_eq_mod n 1

/-- Reduce an equation between fields of a word to linear arithmetic. -/
macro "field" : tactic => `(tactic| (
  apply BitVec.eq_of_toNat_eq
  simp only [tag, Ty.code, u8, u16, low12, BitVec.ushiftRight_and_distrib, BitVec.toNat_setWidth,
    BitVec.toNat_and, BitVec.toNat_add, BitVec.toNat_ushiftRight, BitVec.toNat_shiftLeft,
    Nat.shiftRight_eq_div_pow, Nat.shiftLeft_eq, BitVec.toNat_ofNat, BitVec.reduceHShiftLeft,
    BitVec.reduceHShiftRight, BitVec.ofNat_eq_ofNat]
  simp only [Nat.reducePow, Nat.reduceMod, Nat.reduceDiv, and12, and8, and1]
  omega))

/-- The natural number denoted by a tagged word. -/
macro "nat_norm" : tactic => `(tactic| (
  simp only [tag, Ty.code, u8, u16, BitVec.ushiftRight_and_distrib, BitVec.toNat_setWidth,
    BitVec.toNat_and, BitVec.toNat_add, BitVec.toNat_ushiftRight, BitVec.toNat_shiftLeft,
    Nat.shiftRight_eq_div_pow, Nat.shiftLeft_eq, BitVec.toNat_ofNat, BitVec.reduceHShiftLeft,
    BitVec.reduceHShiftRight, BitVec.ofNat_eq_ofNat]
  simp only [Nat.reducePow, Nat.reduceMod, Nat.reduceDiv, and12, and8, and1]))

/-- The number of a type code. -/
def Ty.num : Ty → Nat := fun t => t.code.toNat

theorem Ty.num_lt (t : Ty) : t.num < 256 := by cases t <;> decide
theorem Ty.num_ge (t : Ty) : 128 ≤ t.num := by cases t <;> decide

theorem tag_toNat (t : Ty) : (tag t).toNat = t.num * 16777216 := by
  cases t <;> decide

/-- `isFloat` and the descriptor only look at the top byte. -/
theorem isFloat_eq (a : Word) : isFloat a = decide (a.toNat < 2147483648) := by
  have := a.isLt
  unfold isFloat
  rw [Bool.eq_iff_iff]
  simp only [beq_iff_eq, decide_eq_true_eq]
  rw [← BitVec.toNat_inj]
  nat_norm
  omega

theorem getDescriptor_toNat (a : Word) : (getDescriptor a).toNat = a.toNat / 16777216 := by
  have := a.isLt
  unfold getDescriptor
  nat_norm
  omega

theorem asIndex_toNat (a : Word) : (asIndex a).toNat = a.toNat % 4096 := by
  unfold asIndex; nat_norm; omega
theorem asOpcode_toNat (a : Word) : (asOpcode a).toNat = a.toNat / 256 % 4096 := by
  unfold asOpcode; nat_norm; omega
theorem asInputIndex_toNat (a : Word) : (asInputIndex a).toNat = a.toNat / 4096 % 256 := by
  unfold asInputIndex; nat_norm; omega
theorem asRelativeIndex_toNat (a : Word) : (asRelativeIndex a).toNat = a.toNat / 4096 % 256 := by
  unfold asRelativeIndex; nat_norm; omega
theorem asCastOpcode_toNat (a : Word) : (asCastOpcode a).toNat = a.toNat / 4096 % 4096 := by
  unfold asCastOpcode; nat_norm; omega
theorem getNodeID_toNat (a : Word) : (getNodeID a).toNat = a.toNat / 65536 % 256 := by
  unfold getNodeID; nat_norm; omega
theorem asAssignmentIndex_toNat (a : Word) :
    (asAssignmentIndex a).toNat = a.toNat / 65536 % 256 := by
  unfold asAssignmentIndex; nat_norm; omega
theorem getClassID_toNat (a : Word) : (getClassID a).toNat = a.toNat / 256 % 256 := by
  unfold getClassID; nat_norm; omega
theorem getDeviceID_toNat (a : Word) : (getDeviceID a).toNat = a.toNat % 256 := by
  unfold getDeviceID; nat_norm; omega
theorem takesPastInputs_eq (a : Word) : takesPastInputs a = decide (a.toNat % 2 ≠ 0) := by
  unfold takesPastInputs
  rw [Bool.eq_iff_iff]
  simp only [bne_iff_ne, ne_eq, decide_eq_true_eq]
  rw [← BitVec.toNat_inj]; nat_norm
theorem asBoolean_eq (a : Word) : asBoolean a = decide (a.toNat % 256 ≠ 0) := by
  unfold asBoolean
  rw [Bool.eq_iff_iff]
  simp only [bne_iff_ne, ne_eq, decide_eq_true_eq]
  rw [← BitVec.toNat_inj]; nat_norm

/-! Numeric values of the encoders. -/

theorem ptr_toNat (t : Ty) (x : BitVec 16) :
    (ptr t x).toNat = t.num * 16777216 + x.toNat % 4096 := by
  have := t.num_lt
  unfold ptr; rw [BitVec.toNat_add, tag_toNat]; nat_norm; omega
theorem struct_toNat (t : Ty) (o : BitVec 16) (n : BitVec 8) :
    (struct_ t o n).toNat = t.num * 16777216 + o.toNat % 4096 * 256 + n.toNat := by
  have := t.num_lt; have := n.isLt
  unfold struct_; rw [BitVec.toNat_add, BitVec.toNat_add, tag_toNat]; nat_norm; omega
theorem inObj_toNat (r : BitVec 8) (x : BitVec 16) :
    (inObjPointer r x).toNat = 0x88 * 16777216 + r.toNat * 4096 + x.toNat % 4096 := by
  have := r.isLt
  unfold inObjPointer; nat_norm; omega
theorem dInObj_toNat (r : BitVec 8) (x : BitVec 16) :
    (dInObjPointer r x).toNat = 0x8C * 16777216 + r.toNat * 4096 + x.toNat % 4096 := by
  have := r.isLt
  unfold dInObjPointer; nat_norm; omega
theorem assignment_toNat (r : BitVec 8) (x : BitVec 16) :
    (assignmentPointer r x).toNat = 0x8D * 16777216 + r.toNat * 65536 + x.toNat % 4096 := by
  have := r.isLt
  unfold assignmentPointer; nat_norm; omega
theorem codeVL_toNat (x c : BitVec 16) :
    (codeVLPointer x c).toNat = 0x8E * 16777216 + c.toNat % 4096 * 4096 + x.toNat % 4096 := by
  unfold codeVLPointer; nat_norm; omega
theorem wildcard_toNat (o : BitVec 16) :
    (wildcard o).toNat = 0x82 * 16777216 + o.toNat % 4096 * 256 := by
  unfold wildcard; nat_norm; omega
theorem device_toNat (a b c : BitVec 8) :
    (device a b c).toNat = 0xA1 * 16777216 + a.toNat * 65536 + b.toNat * 256 + c.toNat := by
  have := a.isLt; have := b.isLt; have := c.isLt
  unfold device; nat_norm; omega
theorem node_toNat (a : BitVec 8) :
    (node a).toNat = 0xA0 * 16777216 + a.toNat * 256 := by
  have := a.isLt
  unfold node; nat_norm; omega
theorem deviceFunction_toNat (o : BitVec 16) :
    (deviceFunction o).toNat = 0xA2 * 16777216 + o.toNat * 256 := by
  have := o.isLt
  unfold deviceFunction; nat_norm; omega
theorem set_toNat (n : BitVec 8) : (set n).toNat = 0xC1 * 16777216 + n.toNat := by
  have := n.isLt
  unfold set; nat_norm; omega
theorem cPointer_toNat (n : BitVec 8) : (cPointer n).toNat = 0xC0 * 16777216 + n.toNat := by
  have := n.isLt
  unfold cPointer; nat_norm; omega
theorem string_toNat (n : BitVec 8) :
    (string n).toNat = 0xC6 * 16777216 + (stringBlocks n).toNat * 256 + n.toNat := by
  have := n.isLt; have := (stringBlocks n).isLt
  unfold string; nat_norm; omega
theorem stringBlocks_toNat (n : BitVec 8) : (stringBlocks n).toNat = (n.toNat + 3) / 4 := by
  have h := n.isLt
  unfold stringBlocks
  split <;> rename_i hc
  · have := congrArg BitVec.toNat hc
    simp only [BitVec.toNat_umod, BitVec.ofNat_eq_ofNat, BitVec.toNat_ofNat, Nat.reducePow,
      Nat.reduceMod] at this
    simp only [BitVec.toNat_udiv, BitVec.ofNat_eq_ofNat, BitVec.toNat_ofNat, Nat.reducePow,
      Nat.reduceMod]
    omega
  · have : ¬ n.toNat % 4 = 0 := fun h' => hc (BitVec.eq_of_toNat_eq (by simpa using h'))
    simp only [BitVec.toNat_add, BitVec.toNat_udiv, BitVec.ofNat_eq_ofNat, BitVec.toNat_ofNat,
      Nat.reducePow, Nat.reduceMod]
    omega
theorem boolean_toNat (b : Bool) : (boolean b).toNat = 0x81 * 16777216 + b.toNat := by
  cases b <;> decide
theorem nullProgram_toNat (b : Bool) : (nullProgram b).toNat = 0xCF * 16777216 + b.toNat := by
  cases b <;> decide
theorem float_toNat (f : BitVec 32) : (float f).toNat = f.toNat / 2 := by
  simp [float, Nat.shiftRight_eq_div_pow]
theorem asFloat_toNat (a : Word) : (asFloat a).toNat = a.toNat * 2 % 4294967296 := by
  simp [asFloat, Nat.shiftLeft_eq]

/-- `getAtomCount` on the kinds that carry an element count in the low byte. -/
theorem getAtomCount_count (a : Word)
    (h : a.toNat / 16777216 ∈ [0xC0, 0xC1, 0xC2, 0xC3, 0xC4, 0xC5, 0xC8, 0xC9, 0xCA, 0xCB, 0xCC,
      0xCD, 0xCE]) : getAtomCount a = getDeviceID a := by
  have hd := getDescriptor_toNat a
  unfold getAtomCount getDeviceID
  rw [if_pos]
  simp only [← BitVec.toNat_inj, hd, BitVec.toNat_ofNat, BitVec.ofNat_eq_ofNat, Nat.reducePow,
    Nat.reduceMod]
  simp only [List.mem_cons, List.not_mem_nil, or_false] at h
  omega

/-- A tagged word is not a number and its descriptor is the tag. -/
theorem tagged (t : Ty) (w : Word) (low : Nat) (h : w.toNat = t.num * 16777216 + low)
    (hl : low < 16777216) : isFloat w = false ∧ (getDescriptor w).toNat = t.num := by
  have := t.num_ge
  rw [isFloat_eq, getDescriptor_toNat]
  refine ⟨?_, by omega⟩
  simp only [decide_eq_false_iff_not]; omega

theorem low12_toNat (x : BitVec 16) : (low12 x).toNat = x.toNat % 4096 := by
  simp [low12]; omega

theorem low12_of_lt {x : BitVec 16} (h : x.toNat < 4096) : low12 x = x :=
  BitVec.eq_of_toNat_eq (by rw [low12_toNat]; omega)

theorem index_eq (a : Word) (x : BitVec 16) (h : a.toNat % 4096 = x.toNat % 4096) :
    asIndex a = low12 x :=
  BitVec.eq_of_toNat_eq (by rw [asIndex_toNat, low12_toNat, h])

theorem opcode_eq (a : Word) (x : BitVec 16) (h : a.toNat / 256 % 4096 = x.toNat % 4096) :
    asOpcode a = low12 x :=
  BitVec.eq_of_toNat_eq (by rw [asOpcode_toNat, low12_toNat, h])

theorem cast_eq (a : Word) (x : BitVec 16) (h : a.toNat / 4096 % 4096 = x.toNat % 4096) :
    asCastOpcode a = low12 x :=
  BitVec.eq_of_toNat_eq (by rw [asCastOpcode_toNat, low12_toNat, h])

theorem deviceID_eq (a : Word) (n : BitVec 8) (h : a.toNat % 256 = n.toNat) :
    getDeviceID a = n := BitVec.eq_of_toNat_eq (by rw [getDeviceID_toNat, h])

/-- Kinds for which `getAtomCount` is the element count. -/
def Ty.counted (t : Ty) : Bool :=
  t.num ∈ [0xC0, 0xC1, 0xC2, 0xC3, 0xC4, 0xC5, 0xC8, 0xC9, 0xCA, 0xCB, 0xCC, 0xCD, 0xCE]

theorem count_eq (t : Ty) (w : Word) (n : BitVec 8) (low : Nat) (ht : t.counted = true)
    (h : w.toNat = t.num * 16777216 + low * 256 + n.toNat) (hl : low < 65536) :
    getAtomCount w = n := by
  have hn := n.isLt
  rw [getAtomCount_count, deviceID_eq w n (by omega)]
  have : w.toNat / 16777216 = t.num := by omega
  rw [this]; simpa [Ty.counted] using ht

/-- Same with the numeric tag. -/
theorem taggedN (t : Nat) (w : Word) (low : Nat) (h : w.toNat = t * 16777216 + low)
    (ht : 128 ≤ t) (hl : low < 16777216) : isFloat w = false ∧ (getDescriptor w).toNat = t := by
  rw [isFloat_eq, getDescriptor_toNat]
  refine ⟨?_, by omega⟩
  simp only [decide_eq_false_iff_not]; omega

theorem countN_eq (t : Nat) (w : Word) (n : BitVec 8)
    (ht : t ∈ [0xC0, 0xC1, 0xC2, 0xC3, 0xC4, 0xC5, 0xC8, 0xC9, 0xCA, 0xCB, 0xCC, 0xCD, 0xCE])
    (h : w.toNat = t * 16777216 + n.toNat) : getAtomCount w = n := by
  have hn := n.isLt
  rw [getAtomCount_count, deviceID_eq w n (by omega)]
  have : w.toNat / 16777216 = t := by omega
  rw [this]; exact ht

theorem load_pointer (k : PtrKind) (t : Ty) (x : BitVec 16)
    (hs : store (.pointer k x) = ptr t x)
    (hl : ∀ w : Word, isFloat w = false → (getDescriptor w).toNat = t.num →
      load w = some (.pointer k (asIndex w))) :
    load (store (.pointer k x)) = some (.pointer k (low12 x)) := by
  have hw := ptr_toNat t x
  obtain ⟨h1, h2⟩ := tagged t _ _ hw (by omega)
  rw [hs, hl _ h1 h2, index_eq _ x (by omega)]

theorem load_struct (k : StructKind) (t : Ty) (o : BitVec 16) (n : BitVec 8)
    (ht : t.counted = true)
    (hs : store (.struct_ k o n) = struct_ t o n)
    (hl : ∀ w : Word, isFloat w = false → (getDescriptor w).toNat = t.num →
      load w = some (.struct_ k (asOpcode w) (getAtomCount w))) :
    load (store (.struct_ k o n)) = some (.struct_ k (low12 o) n) := by
  have hn := n.isLt
  have hw := struct_toNat t o n
  obtain ⟨h1, h2⟩ := tagged t _ (o.toNat % 4096 * 256 + n.toNat)
    (hw.trans (by omega)) (by omega)
  rw [hs, hl _ h1 h2, opcode_eq _ o (by omega), count_eq t _ n (o.toNat % 4096) ht hw (by omega)]

theorem load_store (v : Val) : load (store v) = some (fit v) := by
  cases v with
  | number f =>
    have hf := f.isLt
    have hw := float_toNat f
    have : isFloat (float f) = true := by rw [isFloat_eq, hw]; simp; omega
    simp only [store, load, this, if_true, fit, Option.some.injEq, Val.number.injEq]
    apply BitVec.eq_of_toNat_eq
    rw [asFloat_toNat, hw, BitVec.toNat_ofNat]
    omega
  | nil => decide
  | boolean b => cases b <;> decide
  | tailWildcard => decide
  | this => decide
  | view => decide
  | mks => decide
  | vws => decide
  | timestamp => decide
  | duration => decide
  | nullProgram b => cases b <;> decide
  | wildcard o =>
    have hw := wildcard_toNat o
    obtain ⟨h1, h2⟩ := taggedN 0x82 _ _ hw (by omega) (by omega)
    simp only [store, fit, load, h1, h2, Bool.false_eq_true, if_false]
    rw [opcode_eq _ o (by omega)]
  | pointer k x =>
    cases k
    · exact load_pointer .i .I_PTR x rfl (fun w h1 h2 => by
        have h2' : (getDescriptor w).toNat = 0x84 := h2; simp [load, h1, h2'])
    · exact load_pointer .vl .VL_PTR x rfl (fun w h1 h2 => by
        have h2' : (getDescriptor w).toNat = 0x86 := h2; simp [load, h1, h2'])
    · exact load_pointer .r .R_PTR x rfl (fun w h1 h2 => by
        have h2' : (getDescriptor w).toNat = 0x85 := h2; simp [load, h1, h2'])
    · exact load_pointer .ipgm .IPGM_PTR x rfl (fun w h1 h2 => by
        have h2' : (getDescriptor w).toNat = 0x87 := h2; simp [load, h1, h2'])
    · exact load_pointer .outObj .OUT_OBJ_PTR x rfl (fun w h1 h2 => by
        have h2' : (getDescriptor w).toNat = 0x8B := h2; simp [load, h1, h2'])
    · exact load_pointer .value .VALUE_PTR x rfl (fun w h1 h2 => by
        have h2' : (getDescriptor w).toNat = 0x89 := h2; simp [load, h1, h2'])
    · exact load_pointer .production .PROD_PTR x rfl (fun w h1 h2 => by
        have h2' : (getDescriptor w).toNat = 0x8A := h2; simp [load, h1, h2'])
  | inObj a x =>
    have ha := a.isLt
    have hw := inObj_toNat a x
    obtain ⟨h1, h2⟩ := taggedN 0x88 _ (a.toNat * 4096 + x.toNat % 4096)
      (hw.trans (by omega)) (by omega) (by omega)
    simp only [store, fit, load, h1, h2, Bool.false_eq_true, if_false]
    rw [index_eq _ x (by omega)]
    have : asInputIndex (inObjPointer a x) = a :=
      BitVec.eq_of_toNat_eq (by rw [asInputIndex_toNat]; omega)
    rw [this]
  | dInObj a x =>
    have ha := a.isLt
    have hw := dInObj_toNat a x
    obtain ⟨h1, h2⟩ := taggedN 0x8C _ (a.toNat * 4096 + x.toNat % 4096)
      (hw.trans (by omega)) (by omega) (by omega)
    simp only [store, fit, load, h1, h2, Bool.false_eq_true, if_false]
    rw [index_eq _ x (by omega)]
    have : asRelativeIndex (dInObjPointer a x) = a :=
      BitVec.eq_of_toNat_eq (by rw [asRelativeIndex_toNat]; omega)
    rw [this]
  | assignment a x =>
    have ha := a.isLt
    have hw := assignment_toNat a x
    obtain ⟨h1, h2⟩ := taggedN 0x8D _ (a.toNat * 65536 + x.toNat % 4096)
      (hw.trans (by omega)) (by omega) (by omega)
    simp only [store, fit, load, h1, h2, Bool.false_eq_true, if_false]
    rw [index_eq _ x (by omega)]
    have : asAssignmentIndex (assignmentPointer a x) = a :=
      BitVec.eq_of_toNat_eq (by rw [asAssignmentIndex_toNat]; omega)
    rw [this]
  | codeVL x c =>
    have hw := codeVL_toNat x c
    obtain ⟨h1, h2⟩ := taggedN 0x8E _ (c.toNat % 4096 * 4096 + x.toNat % 4096)
      (hw.trans (by omega)) (by omega) (by omega)
    simp only [store, fit, load, h1, h2, Bool.false_eq_true, if_false]
    rw [index_eq _ x (by omega), cast_eq _ c (by omega)]
  | device a b c =>
    have ha := a.isLt
    have hb := b.isLt
    have hc := c.isLt
    have hw := device_toNat a b c
    obtain ⟨h1, h2⟩ := taggedN 0xA1 _ (a.toNat * 65536 + b.toNat * 256 + c.toNat)
      (hw.trans (by omega)) (by omega) (by omega)
    simp only [store, fit, load, h1, h2, Bool.false_eq_true, if_false]
    have e1 : getNodeID (device a b c) = a :=
      BitVec.eq_of_toNat_eq (by rw [getNodeID_toNat]; omega)
    have e2 : getClassID (device a b c) = b :=
      BitVec.eq_of_toNat_eq (by rw [getClassID_toNat]; omega)
    rw [e1, e2, deviceID_eq _ c (by omega)]
  | deviceFunction o =>
    have ho := o.isLt
    have hw := deviceFunction_toNat o
    obtain ⟨h1, h2⟩ := taggedN 0xA2 _ _ hw (by omega) (by omega)
    simp only [store, fit, load, h1, h2, Bool.false_eq_true, if_false]
    rw [opcode_eq _ o (by omega)]
  | cPointer n =>
    have hn := n.isLt
    have hw := cPointer_toNat n
    obtain ⟨h1, h2⟩ := taggedN 0xC0 _ _ hw (by omega) (by omega)
    simp only [store, fit, load, h1, h2, Bool.false_eq_true, if_false]
    rw [countN_eq 0xC0 _ n (by decide) hw]
  | set n =>
    have hn := n.isLt
    have hw := set_toNat n
    obtain ⟨h1, h2⟩ := taggedN 0xC1 _ _ hw (by omega) (by omega)
    simp only [store, fit, load, h1, h2, Bool.false_eq_true, if_false]
    rw [countN_eq 0xC1 _ n (by decide) hw]
  | string n =>
    have hn := n.isLt
    have hw := string_toNat n
    have hb := stringBlocks_toNat n
    obtain ⟨h1, h2⟩ := taggedN 0xC6 _ ((stringBlocks n).toNat * 256 + n.toNat)
      (hw.trans (by omega)) (by omega) (by omega)
    simp only [store, fit, load, h1, h2, Bool.false_eq_true, if_false]
    rw [deviceID_eq _ n (by omega)]
  | struct_ k o n =>
    cases k
    · exact load_struct .sset .S_SET o n (by decide) rfl (fun w h1 h2 => by
        have h2' : (getDescriptor w).toNat = 0xC2 := h2; simp [load, h1, h2'])
    · exact load_struct .object .OBJECT o n (by decide) rfl (fun w h1 h2 => by
        have h2' : (getDescriptor w).toNat = 0xC3 := h2; simp [load, h1, h2'])
    · exact load_struct .marker .MARKER o n (by decide) rfl (fun w h1 h2 => by
        have h2' : (getDescriptor w).toNat = 0xC4 := h2; simp [load, h1, h2'])
    · exact load_struct .operator .OPERATOR o n (by decide) rfl (fun w h1 h2 => by
        have h2' : (getDescriptor w).toNat = 0xC5 := h2; simp [load, h1, h2'])
    · exact load_struct .ipgm .INSTANTIATED_PROGRAM o n (by decide) rfl (fun w h1 h2 => by
        have h2' : (getDescriptor w).toNat = 0xC9 := h2; simp [load, h1, h2'])
    · exact load_struct .group .GROUP o n (by decide) rfl (fun w h1 h2 => by
        have h2' : (getDescriptor w).toNat = 0xC8 := h2; simp [load, h1, h2'])
    · exact load_struct .icpp .INSTANTIATED_CPP_PROGRAM o n (by decide) rfl (fun w h1 h2 => by
        have h2' : (getDescriptor w).toNat = 0xCA := h2; simp [load, h1, h2'])
    · exact load_struct .anti .INSTANTIATED_ANTI_PROGRAM o n (by decide) rfl (fun w h1 h2 => by
        have h2' : (getDescriptor w).toNat = 0xCC := h2; simp [load, h1, h2'])
    · exact load_struct .inputLess .INSTANTIATED_INPUT_LESS_PROGRAM o n (by decide) rfl
        (fun w h1 h2 => by
        have h2' : (getDescriptor w).toNat = 0xCB := h2; simp [load, h1, h2'])
    · exact load_struct .cst .COMPOSITE_STATE o n (by decide) rfl (fun w h1 h2 => by
        have h2' : (getDescriptor w).toNat = 0xCD := h2; simp [load, h1, h2'])
    · exact load_struct .mdl .MODEL o n (by decide) rfl (fun w h1 h2 => by
        have h2' : (getDescriptor w).toNat = 0xCE := h2; simp [load, h1, h2'])

theorem fit_of_Fits {v : Val} (h : Fits v) : fit v = v := by
  cases v <;> simp only [Fits] at h <;> simp only [fit, Val.number.injEq, Val.wildcard.injEq,
    Val.pointer.injEq, Val.inObj.injEq, Val.dInObj.injEq, Val.assignment.injEq,
    Val.codeVL.injEq, Val.deviceFunction.injEq, Val.struct_.injEq, true_and, and_true]
  case number f =>
    apply BitVec.eq_of_toNat_eq
    have := f.isLt
    rw [h, BitVec.toNat_ofNat]; omega
  case codeVL x c => exact ⟨low12_of_lt h.1, low12_of_lt h.2⟩
  all_goals exact low12_of_lt h

end Verif.Atom
