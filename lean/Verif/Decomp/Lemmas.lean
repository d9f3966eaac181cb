import Verif.Decomp.Spec
import Verif.Compile.Lemmas
import Verif.Words.Lemmas
import Verif.TimeText.Props

/-! # What the decompiler writes for single elements -/
namespace Verif.Decomp
open Verif.Macro Verif.Classes Verif.Atom Verif.Compile

/-! ## Other names for variables -/

mutual
/-- The tree with other names for its variables. -/
def ren (ρ : Name → Name) : Tree → Tree
  | .word w => .word w
  | .var x => .var (ρ x)
  | .obj o => .obj o
  | .time h v => .time h v
  | .str s => .str s
  | .node l h kids => .node (l.map ρ) h (rens ρ kids)
/-- The same for several. -/
def rens (ρ : Name → Name) : List Tree → List Tree
  | [] => []
  | t :: r => ren ρ t :: rens ρ r
end

theorem rens_eq (ρ : Name → Name) : ∀ ts, rens ρ ts = ts.map (ren ρ)
  | [] => rfl
  | t :: r => by simp [rens, rens_eq ρ r]

mutual
theorem size_ren (ρ : Name → Name) : ∀ t : Tree, (ren ρ t).size = t.size
  | .word _ | .var _ | .obj _ | .time _ _ | .str _ => by simp [ren, Tree.size]
  | .node l h kids => by
    have h1 := sizes_rens ρ kids
    rw [rens_eq] at h1
    simp [ren, Tree.size, rens_eq, h1]
theorem sizes_rens (ρ : Name → Name) : ∀ ts : List Tree, sizes (rens ρ ts) = sizes ts
  | [] => rfl
  | t :: r => by simp [rens, sizes, size_ren ρ t, sizes_rens ρ r]
end

/-! ## Words -/

theorem cell_eq {code : List Word} {i : Nat} {a : Word} (h : code[i]? = some a) : cell code i = a := by simp [cell, h]

theorem desc_of {a : Word} {t : Nat} (h : (getDescriptor a).toNat = t) : getDescriptor a = BitVec.ofNat 8 t := by
  apply BitVec.eq_of_toNat_eq; have := (getDescriptor a).isLt; simp; omega

theorem iptr_desc (j : Nat) : isFloat (iPointer (BitVec.ofNat 16 j)) = false ∧ getDescriptor (iPointer (BitVec.ofNat 16 j)) = 0x84 := by
  obtain ⟨h1, h2⟩ := tagged .I_PTR _ _ (ptr_toNat .I_PTR (BitVec.ofNat 16 j)) (by omega)
  exact ⟨h1, desc_of h2⟩

theorem vptr_desc (j : Nat) : isFloat (vlPointer (BitVec.ofNat 16 j)) = false ∧ getDescriptor (vlPointer (BitVec.ofNat 16 j)) = 0x86 := by
  obtain ⟨h1, h2⟩ := tagged .VL_PTR _ _ (ptr_toNat .VL_PTR (BitVec.ofNat 16 j)) (by omega)
  exact ⟨h1, desc_of h2⟩

theorem rptr_desc (j : Nat) : isFloat (rPointer (BitVec.ofNat 16 j)) = false ∧ getDescriptor (rPointer (BitVec.ofNat 16 j)) = 0x85 := by
  obtain ⟨h1, h2⟩ := tagged .R_PTR _ _ (ptr_toNat .R_PTR (BitVec.ofNat 16 j)) (by omega)
  exact ⟨h1, desc_of h2⟩

theorem aptr_desc (v j : Nat) : isFloat (assignmentPointer (BitVec.ofNat 8 v) (BitVec.ofNat 16 j)) = false ∧
    getDescriptor (assignmentPointer (BitVec.ofNat 8 v) (BitVec.ofNat 16 j)) = 0x8D := by
  have := (BitVec.ofNat 8 v).isLt
  obtain ⟨h1, h2⟩ := taggedN 0x8D (assignmentPointer (BitVec.ofNat 8 v) (BitVec.ofNat 16 j)) _
    (by rw [assignment_toNat, Nat.add_assoc]) (by omega) (by omega)
  exact ⟨h1, desc_of h2⟩

theorem ptr_index {t : Ty} {j : Nat} (hj : j < 4096) : (asIndex (ptr t (BitVec.ofNat 16 j))).toNat = j := by
  have := t.num_lt
  rw [asIndex_toNat, ptr_toNat]; simp; omega

theorem aptr_index {v j : Nat} (hj : j < 4096) : (asIndex (assignmentPointer (BitVec.ofNat 8 v) (BitVec.ofNat 16 j))).toNat = j := by
  rw [asIndex_toNat, assignment_toNat]; simp; omega

theorem aptr_var {v j : Nat} (hv : v < 255) :
    (asAssignmentIndex (assignmentPointer (BitVec.ofNat 8 v) (BitVec.ofNat 16 j))).toNat = v := by
  rw [asAssignmentIndex_toNat, assignment_toNat]; simp; omega

theorem vptr_cast {j : Nat} : asCastOpcode (vlPointer (BitVec.ofNat 16 j)) ≠ 0x0FFE := by
  intro h
  have h2 := congrArg BitVec.toNat h
  have h3 := ptr_toNat .VL_PTR (BitVec.ofNat 16 j)
  have h4 : Ty.num .VL_PTR = 0x86 := by decide
  rw [vlPointer, asCastOpcode_toNat, h3, h4] at h2
  simp at h2; omega

/-- A descriptor that is not that of a number. -/
theorem not_float {a : Word} {d : BitVec 8} (h : getDescriptor a = d) (hd : 128 ≤ d.toNat) : isFloat a = false := by
  rw [isFloat_eq]
  have := congrArg BitVec.toNat h
  rw [getDescriptor_toNat] at this
  simp only [decide_eq_false_iff_not]; omega

/-! ## Elements -/

variable {T : Meta} {code : List Word} {R : List Nat} {fl : Fl} {i : Nat}

theorem any_iptr (f : Nat) (close : Bool) (wvi : Nat) {j : Nat} (hj : j < 4096) (h : code[i]? = some (iPointer (BitVec.ofNat 16 j))) :
    writeAny (f + 1) T code R fl i close false wvi = (writePtr f T code R fl i none j wvi).map fun p => ([p.1], p.2, false) := by
  obtain ⟨h1, h2⟩ := iptr_desc j
  have h3 : (asIndex (iPointer (BitVec.ofNat 16 j))).toNat = j := ptr_index hj
  simp only [writeAny, cell_eq h, h1, h2, h3]
  simp

theorem any_aptr (f : Nat) (close : Bool) (wvi : Nat) {v j : Nat} (hj : j < 4096) (hv : v < 255) (hp : fl.post = false)
    (h : code[i]? = some (assignmentPointer (BitVec.ofNat 8 v) (BitVec.ofNat 16 j))) :
    writeAny (f + 1) T code R fl i close false wvi =
      (writePtr f T code R fl i (some (varName v)) j wvi).map fun p => ([p.1], p.2, false) := by
  obtain ⟨h1, h2⟩ := aptr_desc v j
  simp only [writeAny, cell_eq h, h1, h2, aptr_index hj, aptr_var hv, hp]
  simp

theorem any_var (f : Nat) (close : Bool) (wvi : Nat) {k : Nat} (hk : k < 256) (h : code[i]? = some (vlPointer (BitVec.ofNat 16 k))) :
    writeAny (f + 1) T code R fl i close false wvi =
      some ([if fl.post then .var (varName k) else .name (varName k) close], fl, false) := by
  obtain ⟨h1, h2⟩ := vptr_desc k
  have h3 : (asIndex (vlPointer (BitVec.ofNat 16 k))).toNat = k := ptr_index (by omega)
  have h4 := vptr_cast (j := k)
  simp only [writeAny, cell_eq h, h1, h2, h3, if_neg h4]
  simp

theorem any_float (f : Nat) (close : Bool) (wvi : Nat) {a : Word} (h : code[i]? = some a) (ha : isFloat a = true) :
    writeAny (f + 1) T code R fl i close false wvi = (number T a).map fun x => ([x], fl, false) := by
  simp [writeAny, cell_eq h, ha]

theorem any_atom (f : Nat) (close : Bool) (wvi : Nat) {a : Word} {d : BitVec 8} (h : code[i]? = some a) (hd : getDescriptor a = d)
    (h0 : 128 ≤ d.toNat) (h1 : d ≠ 0x86) (h2 : d ≠ 0x8D) (h3 : d ≠ 0x84) (h4 : d ≠ 0x8E) (h5 : d ≠ 0x83) :
    writeAny (f + 1) T code R fl i close false wvi = (atomSyn T R close a).map fun x => ([x], fl, false) := by
  have := not_float hd h0
  simp only [writeAny, cell_eq h, this, hd, h1, h2, h3, h4, h5]
  simp

theorem any_tail (f : Nat) (close : Bool) (wvi : Nat) (h : code[i]? = some tailWildcard) :
    writeAny (f + 1) T code R fl i close false wvi = some ([.tail], fl, true) := by
  have h1 : isFloat tailWildcard = false := by decide
  have h2 : getDescriptor tailWildcard = 0x83 := by decide
  simp [writeAny, cell_eq h, h1, h2, atomSyn]

theorem any_after (f : Nat) (close : Bool) (wvi : Nat) (h : code[i]? = some (wildcard 0)) :
    writeAny (f + 1) T code R fl i close true wvi = some ([], fl, true) := by
  have h2 : getDescriptor (wildcard 0) = 0x82 := by decide
  simp only [writeAny, cell_eq h, h2, if_true]

theorem follow_here {f j : Nat} (h : getDescriptor (cell code j) ≠ 0x84) : follow code (f + 1) j = some j := by
  rw [follow, if_neg h]

/-- Pointers to structures without elements. -/
theorem ptr_plain (f : Nat) (wvi : Nat) {j : Nat} {a : Word} {d : BitVec 8} (hij : i < j) (ha : code[j]? = some a)
    (hd : getDescriptor a = d) (h : d = 0xC6 ∨ d = 0xC7 ∨ d = 0xD0 ∨ (d = 0xC1 ∧ readsAsNil a = true)) :
    writePtr (f + 2) T code R fl i none j wvi = (plainSyn T code j).map fun x => (x, fl) := by
  have h0 : getDescriptor (cell code j) ≠ 0x84 := by
    rw [cell_eq ha, hd]; rcases h with h | h | h | h <;> simp [h]
  rw [writePtr, follow_here h0]
  simp only [cell_eq ha, hd]
  rw [if_neg (by omega)]
  rcases h with h | h | h | h <;> simp [h]

theorem time_text {v : BitVec 64} (h : v ≠ 0x8000000000000000) : -9223372036854775808 < v.toInt ∧ v.toInt < 9223372036854775808 := by
  have h1 := BitVec.le_toInt v
  have h2 := BitVec.toInt_lt (x := v)
  refine ⟨?_, by simpa using h2⟩
  have h3 : v.toInt ≠ -9223372036854775808 := by
    intro h3
    apply h
    rw [← BitVec.ofInt_toInt (x := v), h3]; rfl
  simp at h1; omega

theorem ts_syn {v : BitVec 64} (h : v ≠ 0x8000000000000000) :
    timeSyn TimeText.readTimestamp .ts (TimeText.toStringSMsUs v.toInt 0) = some (.ts v) := by
  obtain ⟨h1, h2⟩ := time_text h
  obtain ⟨s, hs, hr⟩ := TimeText.C56_timestamp v.toInt 0 (by omega) (by omega)
  simp [timeSyn, hs, hr]

theorem dur_syn {v : BitVec 64} (h : v ≠ 0x8000000000000000) :
    timeSyn TimeText.readDuration .dur (TimeText.toStringUs v.toInt) = some (.dur v) := by
  obtain ⟨h1, h2⟩ := time_text h
  obtain ⟨s, hs, hr⟩ := TimeText.C56_duration v.toInt h1 h2
  simp [timeSyn, hs, hr [' '] (by decide)]

/-! ## Strings -/

theorem flat_byte : ∀ (ws : List Word) (k : Nat) (w : Word), ws[k / 4]? = some w →
    (ws.flatMap Words.bytes)[k]? = some ((w >>> (8 * (k % 4))).setWidth 8)
  | [], k, w, h => by simp at h
  | v :: r, k, w, h => by
    have hl : (Words.bytes v).length = 4 := rfl
    by_cases hk : k < 4
    · rw [show k / 4 = 0 by omega] at h
      simp only [List.getElem?_cons_zero, Option.some.injEq] at h; subst h
      rw [List.flatMap_cons, List.getElem?_append_left (by omega)]
      match k, hk with
      | 0, _ => simp [Words.bytes]
      | 1, _ => simp [Words.bytes]
      | 2, _ => simp [Words.bytes]
      | 3, _ => simp [Words.bytes]
    · have h1 : (r.flatMap Words.bytes)[k - 4]? = some ((w >>> (8 * ((k - 4) % 4))).setWidth 8) := by
        apply flat_byte
        rw [show k / 4 = (k - 4) / 4 + 1 by omega] at h
        simpa using h
      rw [List.flatMap_cons, List.getElem?_append_right (by omega), hl, h1, show (k - 4) % 4 = k % 4 by omega]

theorem string_syn {s : List (BitVec 8)} {j : Nat} (hl : s.length < 255) (h0 : (0 : BitVec 8) ∉ s) (h34 : (34 : BitVec 8) ∉ s)
    (ha : code[j]? = some (Atom.string (BitVec.ofNat 8 s.length)))
    (hs : ∀ k b, s[k]? = some b → ∃ w, code[j + 1 + k / 4]? = some w ∧ (w >>> (8 * (k % 4))).setWidth 8 = b) :
    stringSyn (code.drop j) = some (.str s) := by
  have hj := (List.getElem?_eq_some_iff.1 ha).1
  have hd : code.drop j = Atom.string (BitVec.ofNat 8 s.length) :: code.drop (j + 1) := by
    rw [List.drop_eq_getElem_cons hj]
    rw [List.getElem?_eq_getElem hj] at ha
    rw [Option.some.inj ha]
  have hn : (getDeviceID (Atom.string (BitVec.ofNat 8 s.length))).toNat = s.length := by
    have h1 := string_toNat (BitVec.ofNat 8 s.length)
    have h2 : (BitVec.ofNat 8 s.length).toNat = s.length := by simp; omega
    rw [getDeviceID_toNat, h1, h2]; omega
  have hm : ∀ (k : Nat) b, s[k]? = some b → ((code.drop (j + 1)).flatMap Words.bytes)[k]? = some b := by
    intro k b hb
    obtain ⟨w, hw, hwb⟩ := hs k b hb
    rw [flat_byte _ k w (by simpa [List.getElem?_drop] using hw), hwb]
  have hlen : s.length ≤ ((code.drop (j + 1)).flatMap Words.bytes).length := by
    by_contra hc
    have h1 := hm (s.length - 1) (s[s.length - 1]'(by omega)) (List.getElem?_eq_getElem _)
    have := (List.getElem?_eq_some_iff.1 h1).1
    omega
  have ht : ((code.drop (j + 1)).flatMap Words.bytes).take s.length = s := by
    apply List.ext_getElem?
    intro k
    by_cases hk : k < s.length
    · rw [List.getElem?_take_of_lt hk, hm k s[k] (List.getElem?_eq_getElem hk), List.getElem?_eq_getElem hk]
    · rw [List.getElem?_eq_none (by rw [List.length_take]; omega), List.getElem?_eq_none (by omega)]
  have hg : Words.getString (code.drop j) = some s := by
    rw [hd]
    simp only [Words.getString, hn]
    rw [if_neg (by omega), if_neg (by omega), ht, Words.cString, Words.takeWhile_all]
    intro x hx
    simp only [ne_eq, decide_not, Bool.not_eq_eq_eq_not, Bool.not_true, decide_eq_false_iff_not]
    rintro rfl; exact h0 hx
  simp only [stringSyn, hg, Option.bind_some, if_neg h34]

end Verif.Decomp
