import Verif.Usr.Spec
import Verif.Atom.Lemmas
import Mathlib.Tactic.SplitIfs
/-!
# Words, reading and writing
-/
namespace Verif.Usr
open Verif.Atom Verif.Words

theorem desc_eq {w : Word} {d : Nat} (hd : d < 256) (h : w.toNat / 16777216 = d) : getDescriptor w = BitVec.ofNat 8 d := by
  apply BitVec.eq_of_toNat_eq
  rw [getDescriptor_toNat, BitVec.toNat_ofNat, h, Nat.mod_eq_of_lt hd]

theorem desc_is {w : Word} {d : BitVec 8} (h : w.toNat / 16777216 = d.toNat) : getDescriptor w = d := by
  apply BitVec.eq_of_toNat_eq
  rw [getDescriptor_toNat, h]

theorem desc_ne {w : Word} {d : BitVec 8} (h : w.toNat / 16777216 ≠ d.toNat) : getDescriptor w ≠ d := fun e => by
  rw [← e, getDescriptor_toNat] at h
  exact h rfl

theorem num_some {w : Word} {x : BitVec 32} (h : num? w = some x) : isFloat w = true ∧ asFloat w = x ∧ w.toNat / 16777216 < 128 := by
  unfold num? at h
  split_ifs at h with h1
  cases h
  refine ⟨by rw [isFloat_eq, decide_eq_true_eq]; omega, ?_, by omega⟩
  apply BitVec.eq_of_toNat_eq
  rw [asFloat_toNat, BitVec.toNat_ofNat]

theorem num_float (x : BitVec 32) : num? (float x) = some (kept x) := by
  have h := float_toNat x
  unfold num? kept
  rw [if_pos (by omega), h]

theorem kept_kept (x : BitVec 32) : asFloat (float x) = kept x := (num_some (num_float x)).2.1

theorem object_desc (k : BitVec 16) (n : BitVec 8) : getDescriptor (object k n) = 0xC3 := by
  have := struct_toNat .OBJECT k n
  exact desc_eq (d := 0xC3) (by omega) (by rw [object, this, show Ty.OBJECT.num = 0xC3 from by decide]; omega)

theorem object_desc' (k : BitVec 16) (n : BitVec 8) : (object k n).toNat / 16777216 = 0xC3 := by
  rw [← getDescriptor_toNat, object_desc]; rfl

theorem object_op {k : BitVec 16} (hk : k.toNat < 4096) (n : BitVec 8) : asOpcode (object k n) = k := by
  have := struct_toNat .OBJECT k n
  apply BitVec.eq_of_toNat_eq
  rw [asOpcode_toNat, object, this]; simp only [Ty.num]; omega

theorem object_count (k : BitVec 16) (n : BitVec 8) : getAtomCount (object k n) = n := by
  have := struct_toNat .OBJECT k n
  exact count_eq .OBJECT _ n (k.toNat % 4096) (by decide) (by rw [object, this]; try omega) (by omega)

theorem set_desc (n : BitVec 8) : (set n).toNat / 16777216 = 0xC1 := by rw [set_toNat]; omega

theorem set_count (n : BitVec 8) : getAtomCount (set n) = n := countN_eq 0xC1 _ n (by decide) (by rw [set_toNat])

theorem ptr_desc {t : Ty} (i : BitVec 16) : (ptr t i).toNat / 16777216 = t.num := by
  rw [ptr_toNat]; omega

theorem ptr_index {t : Ty} {k : Nat} (hk : k < 4096) : (asIndex (ptr t (BitVec.ofNat 16 k))).toNat = k := by
  rw [asIndex_toNat, ptr_toNat, BitVec.toNat_ofNat]; omega

theorem i_desc (i : BitVec 16) : (iPointer i).toNat / 16777216 = 0x84 := ptr_desc i
theorem v_desc (i : BitVec 16) : (vlPointer i).toNat / 16777216 = 0x86 := ptr_desc i
theorem val_desc (i : BitVec 16) : (valuePointer i).toNat / 16777216 = 0x89 := ptr_desc i
theorem i_index {k : Nat} (hk : k < 4096) : (asIndex (iPointer (BitVec.ofNat 16 k))).toNat = k := ptr_index hk
theorem v_index {k : Nat} (hk : k < 4096) : (asIndex (vlPointer (BitVec.ofNat 16 k))).toNat = k := ptr_index hk
theorem val_index {k : Nat} (hk : k < 4096) : (asIndex (valuePointer (BitVec.ofNat 16 k))).toNat = k := ptr_index hk

/-! ## Reading -/

/-- What a context points into. -/
def codeOf (E : Env) (m : Mem) : Base → Option Code
  | .code => some m.code
  | .vals g => if g = m.gen then some m.vals else none
  | .bound v => E.bind v

theorem word_of {E : Env} {m : Mem} {b : Base} {i : Nat} {L : Code} {w : Word} (h : codeOf E m b = some L) (hw : L[i]? = some w) :
    word E m ⟨b, i⟩ = .ok w := by
  cases b with
  | code => cases h; simp [word, hw, Res.of]
  | vals g =>
    simp only [codeOf] at h
    split_ifs at h with hg
    cases h
    simp [word, hg, hw, Res.of]
  | bound v =>
    simp only [codeOf] at h
    simp [word, h, hw, Res.of]

theorem deref_stop {E : Env} {m : Mem} {n : Nat} {c : Ctx} {w : Word} (h : word E m c = .ok w)
    (h1 : w.toNat / 16777216 ≠ 0x84) (h2 : w.toNat / 16777216 ≠ 0x86) (h3 : w.toNat / 16777216 ≠ 0x89) : deref E m (n + 1) c = .ok c := by
  rw [deref, h]
  simp only [Res.bind]
  rw [if_neg (desc_ne h1), if_neg (desc_ne h2), if_neg (desc_ne h3)]

theorem deref_i {E : Env} {m : Mem} {n : Nat} {b : Base} {i q : Nat} (hq : q < 4096) (h : word E m ⟨b, i⟩ = .ok (iPointer (BitVec.ofNat 16 q))) :
    deref E m (n + 1) ⟨b, i⟩ = deref E m n ⟨b, q⟩ := by
  rw [deref, h]
  simp only [Res.bind]
  rw [if_pos (desc_is (by rw [i_desc]; rfl)), i_index hq]

theorem deref_v {E : Env} {m : Mem} {n : Nat} {b : Base} {i q : Nat} {L : Code} (hq : q < 4096) (hb : E.bind q = some L)
    (h : word E m ⟨b, i⟩ = .ok (vlPointer (BitVec.ofNat 16 q))) :
    deref E m (n + 1) ⟨b, i⟩ = deref E m n ⟨.bound q, 0⟩ := by
  rw [deref, h]
  simp only [Res.bind]
  rw [if_neg (desc_ne (by rw [v_desc]; decide)), if_pos (desc_is (by rw [v_desc]; rfl)), v_index hq, hb]
  rfl

theorem deref_val {E : Env} {m : Mem} {n : Nat} {b : Base} {i q : Nat} (hq : q < 4096)
    (h : word E m ⟨b, i⟩ = .ok (valuePointer (BitVec.ofNat 16 q))) :
    deref E m (n + 1) ⟨b, i⟩ = deref E m n ⟨.vals m.gen, q⟩ := by
  rw [deref, h]
  simp only [Res.bind]
  rw [if_neg (desc_ne (by rw [val_desc]; decide)), if_neg (desc_ne (by rw [val_desc]; decide)),
    if_pos (desc_is (by rw [val_desc]; rfl)), val_index hq]

theorem nums_length {L : Code} {n : Nat} : ∀ {i : Nat} {xs : List (BitVec 32)}, nums L i n = some xs → xs.length = n := by
  induction n with
  | zero => intro i xs h; cases h; rfl
  | succ n ih =>
    intro i xs h
    simp only [nums, Option.bind_eq_some_iff, Option.map_eq_some_iff] at h
    obtain ⟨w, _, x, _, ys, h, rfl⟩ := h
    simp [ih h]

theorem nums_get {L : Code} {n : Nat} : ∀ {i : Nat} {xs : List (BitVec 32)} {k : Nat}, nums L i n = some xs → k < n →
    ∃ w x, L[i + k]? = some w ∧ num? w = some x ∧ xs[k]? = some x := by
  induction n with
  | zero => intro i xs k _ h; omega
  | succ n ih =>
    intro i xs k h hk
    simp only [nums, Option.bind_eq_some_iff, Option.map_eq_some_iff] at h
    obtain ⟨w, h1, x, h2, ys, h, rfl⟩ := h
    cases k with
    | zero => exact ⟨w, x, h1, h2, rfl⟩
    | succ k =>
      obtain ⟨w, x, a, b, c⟩ := ih h (k := k) (by omega)
      exact ⟨w, x, by rw [show i + (k + 1) = i + 1 + k by omega]; exact a, b, by simpa using c⟩

theorem comp_nums {E : Env} {m : Mem} {b : Base} {p n k : Nat} {L : Code} {xs : List (BitVec 32)} (h : codeOf E m b = some L)
    (hn : nums L (p + 1) n = some xs) (hk : k < n) : ∃ x, xs[k]? = some x ∧ comp E m ⟨b, p⟩ (k + 1) = .ok x := by
  obtain ⟨w, x, h1, h2, h3⟩ := nums_get hn hk
  refine ⟨x, h3, ?_⟩
  have hw : word E m ⟨b, p + (k + 1)⟩ = .ok w := word_of h (by rw [show p + (k + 1) = p + 1 + k by omega]; exact h1)
  have hf := num_some h2
  have hd : deref E m deep ⟨b, p + (k + 1)⟩ = .ok ⟨b, p + (k + 1)⟩ := deref_stop hw (by omega) (by omega) (by omega)
  simp only [comp, sub, Ctx.child, hd, Res.bind, hw, hf.2.1]

/-- A value at a context. -/
def Has (E : Env) (m : Mem) (l : Ctx) (a : Val) : Prop := ∃ L, codeOf E m l.base = some L ∧ thingAt E.K L l.i = some a

/-- The three classes of fixed size. -/
def sized (K : Classes) (k : BitVec 16) (n : Nat) : Prop := (k = K.v3 ∧ n = 3) ∨ (k = K.v2 ∧ n = 2) ∨ (k = K.qt ∧ n = 4)

theorem set_shape {L : Code} {p : Nat} {v : Val} (h : setAt L p = some v) :
    ∃ n xs, n < 256 ∧ L[p]? = some (set (BitVec.ofNat 8 n)) ∧ nums L (p + 1) n = some xs ∧ v = .vec xs := by
  simp only [setAt, Option.bind_eq_some_iff] at h
  obtain ⟨s, h1, h⟩ := h
  split_ifs at h with hs
  obtain ⟨xs, h2, rfl⟩ := Option.map_eq_some_iff.mp h
  exact ⟨s.toNat % 256, xs, by omega, by rw [← hs]; exact h1, h2, rfl⟩

/-- The shapes of structures. -/
theorem struct_shape {K : Classes} {L : Code} {p : Nat} {v : Val} (h : structAt K L p = some v) :
    (∃ k n xs, sized K k n ∧ L[p]? = some (object k (BitVec.ofNat 8 n)) ∧ nums L (p + 1) n = some xs ∧ v = .obj k xs) ∨
    (∃ q n xs, q < 4096 ∧ n < 256 ∧ L[p]? = some (object K.vn 1) ∧ L[p + 1]? = some (iPointer (BitVec.ofNat 16 q)) ∧
      L[q]? = some (set (BitVec.ofNat 8 n)) ∧ nums L (q + 1) n = some xs ∧ v = .vec xs) := by
  simp only [structAt, Option.bind_eq_some_iff] at h
  obtain ⟨w, h1, h⟩ := h
  split_ifs at h with a b c d
  · obtain ⟨xs, h2, rfl⟩ := Option.map_eq_some_iff.mp h
    subst a
    exact .inl ⟨_, 3, xs, .inl ⟨rfl, rfl⟩, h1, h2, rfl⟩
  · obtain ⟨xs, h2, rfl⟩ := Option.map_eq_some_iff.mp h
    subst b
    exact .inl ⟨_, 2, xs, .inr (.inl ⟨rfl, rfl⟩), h1, h2, rfl⟩
  · obtain ⟨xs, h2, rfl⟩ := Option.map_eq_some_iff.mp h
    subst c
    exact .inl ⟨_, 4, xs, .inr (.inr ⟨rfl, rfl⟩), h1, h2, rfl⟩
  · obtain ⟨u, h2, h⟩ := Option.bind_eq_some_iff.mp h
    split_ifs at h with hu
    obtain ⟨n, xs, a1, a2, a3, rfl⟩ := set_shape h
    subst d
    exact .inr ⟨_, n, xs, by omega, a1, h1, by rw [← hu]; exact h2, a2, a3, rfl⟩

theorem thing_shape {K : Classes} {L : Code} {p : Nat} {v : Val} (h : thingAt K L p = some v) :
    (∃ w x, L[p]? = some w ∧ num? w = some x ∧ v = .num x) ∨ structAt K L p = some v := by
  unfold thingAt at h
  split at h
  · rename_i x hx
    obtain ⟨w, h1, h2⟩ := Option.bind_eq_some_iff.mp hx
    cases h
    exact .inl ⟨w, x, h1, h2, rfl⟩
  · exact .inr h

/-- Lists that agree but for operators. -/
def Agree (L L' : Code) : Prop := ∀ (j : Nat) (w : Word), L[j]? = some w → w.toNat / 16777216 ≠ 0xC5 → L'[j]? = some w

theorem nums_agree {L L' : Code} (h : Agree L L') {n : Nat} : ∀ {i : Nat} {xs : List (BitVec 32)}, nums L i n = some xs → nums L' i n = some xs := by
  induction n with
  | zero => intro i xs e; exact e
  | succ n ih =>
    intro i xs e
    simp only [nums, Option.bind_eq_some_iff, Option.map_eq_some_iff] at e ⊢
    obtain ⟨w, h1, x, h2, ys, e, rfl⟩ := e
    exact ⟨w, h _ _ h1 (by have := (num_some h2).2.2; omega), x, h2, ys, ih e, rfl⟩

theorem set_agree {L L' : Code} (h : Agree L L') {p : Nat} {v : Val} (e : setAt L p = some v) : setAt L' p = some v := by
  have hd := set_shape e
  obtain ⟨n, xs, h1, h2, h3, rfl⟩ := hd
  have : L'[p]? = some (set (BitVec.ofNat 8 n)) := h _ _ h2 (by rw [set_desc]; omega)
  simp only [setAt, h2, Option.bind_some] at e
  simp only [setAt, this, Option.bind_some]
  split_ifs at e ⊢ with hs
  obtain ⟨ys, h4, e⟩ := Option.map_eq_some_iff.mp e
  rw [nums_agree h h4]; exact congrArg some e

theorem struct_agree {K : Classes} {L L' : Code} (h : Agree L L') {p : Nat} {v : Val} (e : structAt K L p = some v) : structAt K L' p = some v := by
  have hw : ∃ w : Word, L[p]? = some w ∧ w.toNat / 16777216 = 0xC3 := by
    rcases struct_shape e with ⟨k, n, xs, _, h2, _⟩ | ⟨q, n, xs, _, _, h2, _⟩
    · exact ⟨_, h2, object_desc' _ _⟩
    · exact ⟨_, h2, object_desc' _ _⟩
  obtain ⟨w, h1, h2⟩ := hw
  have h1' := h _ _ h1 (by omega)
  simp only [structAt, h1, Option.bind_some] at e
  simp only [structAt, h1', Option.bind_some]
  split_ifs at e ⊢
  · obtain ⟨xs, h3, e⟩ := Option.map_eq_some_iff.mp e
    rw [nums_agree h h3]; exact congrArg some e
  · obtain ⟨xs, h3, e⟩ := Option.map_eq_some_iff.mp e
    rw [nums_agree h h3]; exact congrArg some e
  · obtain ⟨xs, h3, e⟩ := Option.map_eq_some_iff.mp e
    rw [nums_agree h h3]; exact congrArg some e
  · obtain ⟨u, h3, e⟩ := Option.bind_eq_some_iff.mp e
    split_ifs at e with hu
    have hd : u.toNat / 16777216 = 0x84 := by rw [hu, i_desc]
    rw [h _ _ h3 (by omega), Option.bind_some, if_pos hu, set_agree h e]

theorem thing_agree {K : Classes} {L L' : Code} (h : Agree L L') {p : Nat} {v : Val} (e : thingAt K L p = some v) : thingAt K L' p = some v := by
  rcases thing_shape e with ⟨w, x, h1, h2, rfl⟩ | h1
  · simp [thingAt, h _ _ h1 (by have := (num_some h2).2.2; omega), h2]
  · have hw : ∃ w : Word, L[p]? = some w ∧ w.toNat / 16777216 = 0xC3 := by
      rcases struct_shape h1 with ⟨k, n, xs, _, h2, _⟩ | ⟨q, n, xs, _, _, h2, _⟩
      · exact ⟨_, h2, object_desc' _ _⟩
      · exact ⟨_, h2, object_desc' _ _⟩
    obtain ⟨w, h3, h4⟩ := hw
    have h5 : num? w = none := by unfold num?; rw [if_neg (by omega)]
    simp [thingAt, h _ _ h3 (by omega), h5, struct_agree h h1]

theorem agree_append (L ws : Code) : Agree L (L ++ ws) := fun j w h _ => by
  have : j < L.length := (List.getElem?_eq_some_iff.mp h).1
  rw [List.getElem?_append_left this]; exact h

/-! ## Writing -/

/-- Several words added. -/
def pushAll (E : Env) (m : Mem) (ws : Code) : Mem := ws.foldl (push E) m

theorem push_code (E : Env) (m : Mem) (w : Word) : (push E m w).code = m.code := by unfold push; split <;> rfl
theorem push_vals (E : Env) (m : Mem) (w : Word) : (push E m w).vals = m.vals ++ [w] := by unfold push; split <;> rfl

theorem pushAll_code (E : Env) (ws : Code) : ∀ m : Mem, (pushAll E m ws).code = m.code := by
  induction ws with
  | nil => intro m; rfl
  | cons w ws ih => intro m; exact (ih _).trans (push_code E m w)

theorem pushAll_vals (E : Env) (ws : Code) : ∀ m : Mem, (pushAll E m ws).vals = m.vals ++ ws := by
  induction ws with
  | nil => intro m; exact (List.append_nil _).symm
  | cons w ws ih => intro m; exact (ih _).trans (by rw [push_vals, List.append_assoc]; rfl)

theorem pushAll_quiet (E : Env) (ws : Code) : ∀ m : Mem, m.vals.length + ws.length ≤ m.cap →
    (pushAll E m ws).gen = m.gen ∧ (pushAll E m ws).cap = m.cap := by
  induction ws with
  | nil => intro m _; exact ⟨rfl, rfl⟩
  | cons w ws ih =>
    intro m h
    simp only [List.length_cons] at h
    have e : push E m w = { m with vals := m.vals ++ [w] } := by unfold push; rw [if_pos (by omega)]
    have := ih (push E m w) (by rw [e]; simp; omega)
    rw [e] at this
    show (pushAll E (push E m w) ws).gen = _ ∧ (pushAll E (push E m w) ws).cap = _
    rw [e]; exact this

theorem pushAll_append (E : Env) (m : Mem) (us ws : Code) : pushAll E m (us ++ ws) = pushAll E (pushAll E m us) ws := by
  simp [pushAll, List.foldl_append]

theorem nums_floats (L : Code) (xs : List (BitVec 32)) : ∀ (R : Code), nums (L ++ (xs.map float ++ R)) L.length xs.length = some (xs.map kept) := by
  induction xs generalizing L with
  | nil => intro R; rfl
  | cons x xs ih =>
    intro R
    have h1 : (L ++ ((x :: xs).map float ++ R))[L.length]? = some (float x) := by simp
    have h2 := ih (L ++ [float x]) R
    simp only [List.length_cons, nums, h1, Option.bind_some, num_float]
    simp only [List.length_append, List.length_cons, List.length_nil, List.append_assoc, List.singleton_append, Nat.zero_add] at h2
    rw [List.map_cons, List.cons_append, h2]; rfl

end Verif.Usr
