import Verif.Law.Spec
import Verif.Usr.Apply
/-!
# Arguments compared with a value
-/
namespace Verif.Law
open Verif.Atom hiding Val kept
open Verif.Words Verif.Usr

/-- No variables, no wildcards. -/
def Solid (c : Code) : Prop := ∀ w ∈ c, getDescriptor w ≠ 0x82 ∧ getDescriptor w ≠ 0x83 ∧ getDescriptor w ≠ 0x86

theorem num_none {w : Word} (h : 128 ≤ w.toNat / 16777216) : num? w = none := by
  unfold num?; rw [if_neg (by omega)]

theorem num_inj {w u : Word} {x : BitVec 32} (h1 : num? w = some x) (h2 : num? u = some x) : w = u := by
  unfold num? at h1 h2
  split_ifs at h1 h2 with a b
  cases h1
  have e := congrArg BitVec.toNat (Option.some.inj h2)
  simp only [BitVec.toNat_ofNat] at e
  apply BitVec.eq_of_toNat_eq
  omega

theorem not_float {w : Word} (h : num? w = none) : isFloat w = false := by
  rw [isFloat_eq, decide_eq_false_iff_not]
  unfold num? at h
  split_ifs at h
  omega

theorem desc_toNat_ne {w : Word} {d : BitVec 8} (h : getDescriptor w ≠ d) : w.toNat / 16777216 ≠ d.toNat := fun e => h (desc_is e)

theorem word_float {t : Match.Tol} {wl wr : Word} {y : BitVec 32} (st ob : Option Bool) (hy : num? wr = some y)
    (h2 : getDescriptor wl ≠ 0x82) (h3 : getDescriptor wl ≠ 0x83) (h6 : getDescriptor wl ≠ 0x86) :
    Match.matchWord t false wl wr st ob = some ((num? wl).elim false (near t · y)) := by
  obtain ⟨f1, f2, f3⟩ := num_some hy
  have d : ∀ b : BitVec 8, 128 ≤ b.toNat → (getDescriptor wr == b) = false := fun b hb =>
    beq_eq_false_iff_ne.mpr (desc_ne (by omega))
  have w1 : Match.isWild wr = false := by simp only [Match.isWild, d 0x83 (by decide), d 0x82 (by decide)]; rfl
  have w2 : Match.isVar wr = false := d _ (by decide)
  have w3 : Match.isIPtr wr = false := d _ (by decide)
  have w4 : Match.isRPtr wr = false := d _ (by decide)
  have l1 : Match.isWild wl = false := by simp only [Match.isWild, beq_eq_false_iff_ne.mpr h2, beq_eq_false_iff_ne.mpr h3]; rfl
  have l2 : Match.isVar wl = false := beq_eq_false_iff_ne.mpr h6
  simp only [Match.matchWord, Match.sameState, Bool.not_false, Bool.true_or, Bool.not_true, Bool.false_eq_true, if_false, l1, l2, Bool.or_self, w1, w2, w3, w4, Bool.false_or]
  have big : ∀ b : BitVec 8, 128 ≤ b.toNat → (getDescriptor wl == b) = true → num? wl = none := fun b hb e => by
    have := congrArg BitVec.toNat (beq_iff_eq.mp e)
    rw [getDescriptor_toNat] at this
    exact num_none (by omega)
  by_cases hi : Match.isIPtr wl = true
  · rw [if_pos hi, big _ (by decide) hi]; rfl
  rw [if_neg hi]
  by_cases hr : Match.isRPtr wl = true
  · rw [if_pos hr, big _ (by decide) hr]; rfl
  rw [if_neg hr]
  congr 1
  cases hx : num? wl with
  | none =>
    have : (wl == wr) = false := beq_eq_false_iff_ne.mpr fun e => by rw [e, hy] at hx; cases hx
    simp [Match.matchAtom, this, not_float hx]
  | some x =>
    obtain ⟨g1, g2, _⟩ := num_some hx
    have : (wl == wr) = (x == y) := by
      rw [Bool.eq_iff_iff, beq_iff_eq, beq_iff_eq]
      exact ⟨fun e => by rw [e, hy] at hx; exact (Option.some.inj hx).symm, fun e => num_inj hx (e ▸ hy)⟩
    simp [Match.matchAtom, this, g1, f1, g2, f2, near]

/-- A word that is no number and no pointer to a structure, against a structure's head or pointer. -/
theorem word_other {t : Match.Tol} {wl wr : Word} (st ob : Option Bool) (hl : wl ≠ wr) (hwr : wr.toNat / 16777216 = 0xC3 ∨ wr.toNat / 16777216 = 0x84)
    (hi : getDescriptor wl ≠ 0x84) (h2 : getDescriptor wl ≠ 0x82) (h3 : getDescriptor wl ≠ 0x83) (h6 : getDescriptor wl ≠ 0x86) :
    Match.matchWord t false wl wr st ob = some false := by
  have d : ∀ b : BitVec 8, b.toNat ≠ 0xC3 → b.toNat ≠ 0x84 → (getDescriptor wr == b) = false := fun b hb hb' =>
    beq_eq_false_iff_ne.mpr (desc_ne (by omega))
  have w1 : Match.isWild wr = false := by simp only [Match.isWild, d 0x83 (by decide) (by decide), d 0x82 (by decide) (by decide)]; rfl
  have w2 : Match.isVar wr = false := d _ (by decide) (by decide)
  have w4 : Match.isRPtr wr = false := d _ (by decide) (by decide)
  have l1 : Match.isWild wl = false := by simp only [Match.isWild, beq_eq_false_iff_ne.mpr h2, beq_eq_false_iff_ne.mpr h3]; rfl
  have l2 : Match.isVar wl = false := beq_eq_false_iff_ne.mpr h6
  have l3 : Match.isIPtr wl = false := beq_eq_false_iff_ne.mpr hi
  have nf : isFloat wr = false := not_float (num_none (by omega))
  simp only [Match.matchWord, Match.sameState, Bool.not_false, Bool.true_or, Bool.not_true, Bool.false_eq_true, if_false, l1, l2, l3, Bool.or_self, w1, w2, w4, Bool.false_or]
  split
  · rfl
  · simp [Match.matchAtom, hl, nf]

theorem word0 (cause s : Code) (i : Nat) : Match.word (heap cause s) 0 i = cause[i]? := rfl
theorem word1 (cause s : Code) (i : Nat) : Match.word (heap cause s) 1 i = s[i]? := rfl

/-- Consecutive words against numbers. -/
theorem match_nums {oc : Match.Opc} {t : Match.Tol} {cause s : Code} (hs : Solid cause) (base : Nat) :
    ∀ (n : Nat) {k rk N : Nat} {ys : List (BitVec 32)}, nums s rk (n + 1) = some ys → base + k + n < cause.length → n + 1 ≤ N →
      Match.matchFrom (heap cause s) oc t false N 0 base k 1 rk (k + n) = some ((nums cause (base + k) (n + 1)).elim false (nearAll t · ys)) := by
  intro n
  induction n with
  | zero =>
    intro k rk N ys hy hb hN
    obtain ⟨N, rfl⟩ : ∃ N', N = N' + 1 := ⟨N - 1, by omega⟩
    obtain ⟨wl, hl⟩ : ∃ wl, cause[base + k]? = some wl := ⟨_, List.getElem?_eq_getElem (by omega)⟩
    simp only [nums, Option.bind_eq_some_iff, Option.map_eq_some_iff] at hy
    obtain ⟨wr, r1, y, r2, zs, e, rfl⟩ := hy
    cases e
    obtain ⟨a, b, c⟩ := hs wl (List.mem_of_getElem? hl)
    simp only [Match.matchFrom, word0, word1, hl, r1, word_float _ _ r2 a b c, Nat.add_zero, if_true]
    simp only [nums, hl, Option.bind_some]
    cases h : num? wl with
    | none => rfl
    | some x => cases hn : near t x y <;> simp [Match.andThen, nearAll, hn]
  | succ n ih =>
    intro k rk N ys hy hb hN
    obtain ⟨N, rfl⟩ : ∃ N', N = N' + 1 := ⟨N - 1, by omega⟩
    obtain ⟨wl, hl⟩ : ∃ wl, cause[base + k]? = some wl := ⟨_, List.getElem?_eq_getElem (by omega)⟩
    rw [nums] at hy
    simp only [Option.bind_eq_some_iff, Option.map_eq_some_iff] at hy
    obtain ⟨wr, r1, y, r2, zs, e, rfl⟩ := hy
    obtain ⟨a, b, c⟩ := hs wl (List.mem_of_getElem? hl)
    have := ih (k := k + 1) (N := N) e (by omega) (by omega)
    rw [show k + 1 + n = k + (n + 1) by omega] at this
    simp only [Match.matchFrom, word0, word1, hl, r1, word_float _ _ r2 a b c]
    rw [if_neg (by omega), this, show base + (k + 1) = base + k + 1 by omega, show nums cause (base + k) (n + 1 + 1) =
      (cause[base + k]?).bind fun w => (num? w).bind fun x => (nums cause (base + k + 1) (n + 1)).map (x :: ·) from rfl, hl, Option.bind_some]
    cases h : num? wl with
    | none => rfl
    | some x =>
      cases hn : near t x y
      · cases nums cause (base + k + 1) (n + 1) <;> simp [Match.andThen, nearAll, hn]
      · cases nums cause (base + k + 1) (n + 1) <;> simp [Match.andThen, nearAll, hn]

/-! ## Structures -/

/-- The structure whose head is that of a class of fixed size. -/
theorem struct_of_head {K : Classes} (hK : K.apart) {L : Code} {p n : Nat} {k : BitVec 16} (hs : sized K k n) (h : L[p]? = some (object k (BitVec.ofNat 8 n))) :
    structAt K L p = (nums L (p + 1) n).map (.obj k) := by
  obtain ⟨n1, n2, n3, n4, n5, n6, l1, l2, l3, l4⟩ := hK.ne
  have inj : ∀ {j i : BitVec 16} {a b : BitVec 8}, i.toNat < 4096 → j.toNat < 4096 → object i a = object j b → i = j := fun hi hj e => by
    rw [← object_op hi, e, object_op hj]
  simp only [structAt, h, Option.bind_some]
  rcases hs with ⟨rfl, rfl⟩ | ⟨rfl, rfl⟩ | ⟨rfl, rfl⟩
  · rw [if_pos (show object K.v3 3#8 = object K.v3 3 from rfl)]
  · rw [if_neg fun e => n1 (inj l2 l1 e).symm, if_pos (show object K.v2 2#8 = object K.v2 2 from rfl)]
  · rw [if_neg fun e => n3 (inj l4 l1 e).symm, if_neg fun e => n5 (inj l4 l2 e).symm, if_pos (show object K.qt 4#8 = object K.qt 4 from rfl)]

theorem struct_of_vec {K : Classes} (hK : K.apart) {L : Code} {p : Nat} (h : L[p]? = some (object K.vn 1)) :
    structAt K L p = (L[p + 1]?).bind fun u => if u = iPointer (BitVec.ofNat 16 (u.toNat % 4096)) then setAt L (u.toNat % 4096) else none := by
  obtain ⟨n1, n2, n3, n4, n5, n6, l1, l2, l3, l4⟩ := hK.ne
  have inj : ∀ {j i : BitVec 16} {a b : BitVec 8}, i.toNat < 4096 → j.toNat < 4096 → object i a = object j b → i = j := fun hi hj e => by
    rw [← object_op hi, e, object_op hj]
  simp only [structAt, h, Option.bind_some]
  rw [if_neg fun e => n2 (inj l3 l1 e).symm, if_neg fun e => n4 (inj l3 l2 e).symm, if_neg fun e => n6 (inj l3 l4 e), if_pos trivial]

/-- How a value is laid out, from the numbers before they are stored. -/
def layout (K : Classes) : Val → Code
  | .num y => [float y]
  | .obj k ys => object k (BitVec.ofNat 8 ys.length) :: ys.map float
  | .vec ys => object K.vn 1 :: iPointer (BitVec.ofNat 16 2) :: Atom.set (BitVec.ofNat 8 ys.length) :: ys.map float

/-- The value as stored. -/
def stored : Val → Val
  | .num y => .num (kept y)
  | .obj k ys => .obj k (ys.map kept)
  | .vec ys => .vec (ys.map kept)

/-- Structures have as many numbers as their class says, sets at most 255. -/
def fit (K : Classes) : Val → Prop
  | .num _ => True
  | .obj k ys => sized K k ys.length
  | .vec ys => ys.length < 256

theorem sized_pos {K : Classes} {k : BitVec 16} {n : Nat} (h : sized K k n) : 0 < n ∧ n < 256 := by
  rcases h with ⟨_, h⟩ | ⟨_, h⟩ | ⟨_, h⟩ <;> omega

theorem sized_unique {K : Classes} (hK : K.apart) {k : BitVec 16} {n m : Nat} (h : sized K k n) (h' : sized K k m) : n = m := by
  obtain ⟨n1, n2, n3, n4, n5, n6, _⟩ := hK.ne
  rcases h with ⟨h1, h1'⟩ | ⟨h1, h1'⟩ | ⟨h1, h1'⟩ <;> rcases h' with ⟨h2, h2'⟩ | ⟨h2, h2'⟩ | ⟨h2, h2'⟩ <;> subst h1 <;>
    first | omega | exact absurd h2 (by assumption) | exact absurd h2.symm (by assumption)

theorem nearAll_length {t : Match.Tol} : ∀ {xs ys : List (BitVec 32)}, nearAll t xs ys = true → xs.length = ys.length
  | [], [], _ => rfl
  | x :: xs, y :: ys, h => by
    simp only [nearAll, Bool.and_eq_true] at h
    simp [nearAll_length h.2]
  | [], _ :: _, h => by simp [nearAll] at h
  | _ :: _, [], h => by simp [nearAll] at h

theorem nums_map (L : Code) (xs : List (BitVec 32)) : nums (L ++ xs.map float) L.length xs.length = some (xs.map kept) := by
  have := nums_floats L xs []
  simpa using this

theorem index_mod (w : Word) : (asIndex w).toNat = w.toNat % 4096 := asIndex_toNat w

/-- The structure an argument's pointer leads to, against a value. -/
theorem matchStructure_eq {K : Classes} (hK : K.apart) {oc : Match.Opc} {t : Match.Tol} {cause : Code} (hs : Solid cause) {p N : Nat} {h : Word} {d : Val}
    (hptr : ∀ w ∈ cause, getDescriptor w = 0x84 → w = iPointer (BitVec.ofNat 16 (w.toNat % 4096)) ∧
      ∃ h, cause[w.toNat % 4096]? = some h ∧ 0xC0 ≤ h.toNat / 16777216 ∧ w.toNat % 4096 + (getAtomCount h).toNat < cause.length)
    (hh : cause[p]? = some h) (hd : 0xC0 ≤ h.toNat / 16777216) (hc : p + (getAtomCount h).toNat < cause.length) (hf : fit K d) (hN : 300 ≤ N) :
    Match.matchStructure (heap cause (layout K d)) oc t false N 0 p 1 0 = some ((structAt K cause p).elim false (close t · (stored d))) := by
  obtain ⟨N, rfl⟩ : ∃ N', N = N' + 1 := ⟨N - 1, by omega⟩
  cases d with
  | num y =>
    have hy := (num_some (num_float y)).2.2
    have hne : h ≠ float y := fun e => by rw [e] at hd; omega
    simp only [Match.matchStructure, word0, word1, hh, layout, List.getElem?_cons_zero, ne_eq, hne, not_false_eq_true, if_true]
    congr 1
    cases e : structAt K cause p with
    | none => rfl
    | some v => rcases struct_shape e with ⟨_, _, _, _, _, _, rfl⟩ | ⟨_, _, _, _, _, _, _, _, _, rfl⟩ <;> rfl
  | obj k ys =>
    obtain ⟨hp1, hp2⟩ := sized_pos hf
    by_cases hne : h = object k (BitVec.ofNat 8 ys.length)
    · subst hne
      have hcnt : (getAtomCount (object k (BitVec.ofNat 8 ys.length))).toNat = ys.length := by
        rw [object_count, BitVec.toNat_ofNat]; omega
      have h0 : ¬ getAtomCount (object k (BitVec.ofNat 8 ys.length)) = 0 := fun e => by rw [e] at hcnt; simp at hcnt; omega
      rw [hcnt] at hc
      have hy := nums_map [object k (BitVec.ofNat 8 ys.length)] ys
      obtain ⟨n, hn⟩ : ∃ n, ys.length = n + 1 := ⟨ys.length - 1, by omega⟩
      have hm := match_nums (oc := oc) (t := t) (cause := cause) (s := layout K (.obj k ys)) hs p n (k := 1) (rk := 1) (N := N)
        (by rw [← hn]; exact hy) (by omega) (by omega)
      rw [show 1 + n = ys.length by omega, ← hn] at hm
      have e0 : (layout K (.obj k ys))[0]? = some (object k (BitVec.ofNat 8 ys.length)) := rfl
      simp only [Match.matchStructure, word0, word1, hh, e0, ne_eq, not_true_eq_false, if_false, h0, object_desc,
        show ¬ (0xC3 : BitVec 8) = 0xC7 from by decide, hcnt]
      rw [hm, struct_of_head hK hf hh]
      cases nums cause (p + 1) ys.length <;> simp [stored, close]
    · have e0 : (layout K (.obj k ys))[0]? = some (object k (BitVec.ofNat 8 ys.length)) := rfl
      simp only [Match.matchStructure, word0, word1, hh, e0, ne_eq, hne, not_false_eq_true, if_true]
      congr 1
      cases e : structAt K cause p with
      | none => rfl
      | some v =>
        rcases struct_shape e with ⟨k', n, xs, s1, s2, s3, rfl⟩ | ⟨_, _, _, _, _, _, _, _, _, rfl⟩
        · show false = (k' == k && nearAll t xs (ys.map kept))
          cases hb : (k' == k) with
          | false => rfl
          | true =>
            have hkk := beq_iff_eq.mp hb
            subst hkk
            rw [sized_unique hK s1 hf, hh] at s2
            exact absurd (Option.some.inj s2) hne
        · rfl
  | vec ys =>
    have hf' : ys.length < 256 := hf
    have e0 : (layout K (.vec ys))[0]? = some (object K.vn 1) := rfl
    have e1 : (layout K (.vec ys))[1]? = some (iPointer (BitVec.ofNat 16 2)) := rfl
    have e2 : (layout K (.vec ys))[2]? = some (Atom.set (BitVec.ofNat 8 ys.length)) := rfl
    have i2 : (asIndex (iPointer (BitVec.ofNat 16 2))).toNat = 2 := i_index (by omega)
    by_cases hne : h = object K.vn 1
    · subst hne
      have hcnt : (getAtomCount (object K.vn 1)).toNat = 1 := by rw [object_count]; rfl
      have h0 : ¬ getAtomCount (object K.vn 1) = 0 := by rw [object_count]; decide
      rw [hcnt] at hc
      obtain ⟨u, hu⟩ : ∃ u, cause[p + 1]? = some u := ⟨_, List.getElem?_eq_getElem hc⟩
      obtain ⟨a, b, c⟩ := hs u (List.mem_of_getElem? hu)
      simp only [Match.matchStructure, word0, word1, hh, e0, ne_eq, not_true_eq_false, if_false, h0, object_desc,
        show ¬ (0xC3 : BitVec 8) = 0xC7 from by decide, hcnt]
      rw [struct_of_vec hK hh, hu, Option.bind_some]
      obtain ⟨N, rfl⟩ : ∃ N', N = N' + 1 := ⟨N - 1, by omega⟩
      simp only [Match.matchFrom, word0, word1, hu, e1, Nat.zero_add, if_true, i2]
      by_cases hi : getDescriptor u = 0x84
      · obtain ⟨g1, s, g2, g3, g4⟩ := hptr u (List.mem_of_getElem? hu) hi
        rw [if_pos g1, index_mod]
        have l1 : Match.isWild u = false := by simp only [Match.isWild, beq_eq_false_iff_ne.mpr a, beq_eq_false_iff_ne.mpr b]; rfl
        have l2 : Match.isVar u = false := beq_eq_false_iff_ne.mpr c
        have l3 : Match.isIPtr u = true := beq_iff_eq.mpr hi
        have r3 : Match.isIPtr (iPointer (BitVec.ofNat 16 2)) = true := beq_iff_eq.mpr (desc_is (by rw [i_desc]; rfl))
        simp only [Match.matchWord, Match.sameState, Bool.not_false, Bool.true_or, Bool.not_true, Bool.false_eq_true, if_false, l1, l2, Bool.or_self,
          l3, r3, if_true]
        have key : Match.matchStructure (heap cause (layout K (.vec ys))) oc t false N 0 (u.toNat % 4096) 1 2 =
            some ((setAt cause (u.toNat % 4096)).elim false (close t · (stored (.vec ys)))) := by
          obtain ⟨N, rfl⟩ : ∃ N', N = N' + 1 := ⟨N - 1, by omega⟩
          simp only [Match.matchStructure, word0, word1, g2, e2, ne_eq]
          by_cases hse : s = Atom.set (BitVec.ofNat 8 ys.length)
          · subst hse
            have hsc : (getAtomCount (Atom.set (BitVec.ofNat 8 ys.length))).toNat = ys.length := set_len hf'
            have hsm : (Atom.set (BitVec.ofNat 8 ys.length)).toNat % 256 = ys.length := by rw [set_toNat, BitVec.toNat_ofNat]; omega
            rw [hsc] at g4
            have esa : setAt cause (u.toNat % 4096) = (nums cause (u.toNat % 4096 + 1) ys.length).map .vec := by
              simp only [setAt, g2, Option.bind_some, hsm, if_true]
            rw [esa, if_neg (by simp)]
            by_cases h0 : ys.length = 0
            · have : ys = [] := List.length_eq_zero_iff.mp h0
              subst this
              rw [if_pos (by rw [set_count]; rfl)]
              rfl
            · rw [if_neg fun e => h0 (by rw [← hsc, e]; rfl), if_neg (desc_ne (by rw [set_desc]; decide)), hsc]
              obtain ⟨n, hn⟩ : ∃ n, ys.length = n + 1 := ⟨ys.length - 1, by omega⟩
              have hy := nums_map [object K.vn 1, iPointer (BitVec.ofNat 16 2), Atom.set (BitVec.ofNat 8 ys.length)] ys
              have hm := match_nums (oc := oc) (t := t) (cause := cause) (s := layout K (.vec ys)) hs (u.toNat % 4096) n (k := 1) (rk := 3) (N := N)
                (by rw [← hn]; exact hy) (by omega) (by omega)
              rw [show 1 + n = ys.length by omega, ← hn] at hm
              rw [hm]
              cases nums cause (u.toNat % 4096 + 1) ys.length <;> rfl
          · rw [if_pos hse]
            congr 1
            cases e : setAt cause (u.toNat % 4096) with
            | none => rfl
            | some v =>
              obtain ⟨n, xs, s1, s2, s3, rfl⟩ := set_shape e
              show false = nearAll t xs (ys.map kept)
              cases hb : nearAll t xs (ys.map kept) with
              | false => rfl
              | true =>
                have h1 := nearAll_length hb
                rw [List.length_map, nums_length s3] at h1
                rw [g2, h1] at s2
                exact absurd (Option.some.inj s2) hse
        rw [key]
        cases (setAt cause (u.toNat % 4096)).elim false (close t · (stored (.vec ys))) <;> rfl
      · rw [if_neg fun e => hi (by rw [e]; exact desc_is (by rw [i_desc]; rfl)),
          word_other _ _ (fun e => hi (by rw [e]; exact desc_is (by rw [i_desc]; rfl))) (.inr (i_desc _)) hi a b c]
        rfl
    · simp only [Match.matchStructure, word0, word1, hh, e0, ne_eq, hne, not_false_eq_true, if_true]
      congr 1
      cases e : structAt K cause p with
      | none => rfl
      | some v =>
        rcases struct_shape e with ⟨k', n, xs, s1, s2, s3, rfl⟩ | ⟨_, _, _, _, _, s3, _, _, _, rfl⟩
        · rfl
        · rw [hh] at s3
          exact absurd (Option.some.inj s3) hne

/-- An argument matches exactly if its value is close. -/
theorem argMatch_eq {S : Setup} (hK : S.E.K.apart) {cause : Code} (hm : Made S cause) {k N : Nat} {w : Word} (hw : cause[k]? = some w)
    (hd : w.toNat / 16777216 < 0xC0) {d : Val} (hf : fit S.E.K d) (hN : 300 ≤ N) :
    argMatch S.oc S.t N cause (layout S.E.K d) k = some ((valueIn S.E.K cause k).elim false (close S.t · (stored d))) := by
  obtain ⟨a, b, c⟩ := hm.solid w (List.mem_of_getElem? hw)
  simp only [argMatch, hw, valueIn, Option.bind_some]
  by_cases hi : getDescriptor w = 0x84
  · obtain ⟨g1, h, g2, g3, g4⟩ := hm.ptr w (List.mem_of_getElem? hw) hi
    have hn : w.toNat / 16777216 = 0x84 := by rw [← getDescriptor_toNat, hi]; rfl
    have hc : getAtomCount w = 0 := by simp [getAtomCount, hi]
    rw [if_pos hi, if_neg (show ¬ w.toNat < 2 ^ 31 by omega), if_pos g1, index_mod, hc]
    exact matchStructure_eq hK hm.solid hm.ptr g2 g3 g4 hf hN
  · have hcnt : (getAtomCount w).toNat = 0 := by
      have h1 : ∀ b : BitVec 8, 0xC0 ≤ b.toNat → ¬ getDescriptor w = b := fun b hb => desc_ne (by omega)
      simp only [getAtomCount]
      rw [if_neg, if_neg (h1 _ (by decide)), if_neg (h1 _ (by decide)), if_neg (h1 _ (by decide))]
      · rfl
      · simp only [not_or]
        refine ⟨h1 _ (by decide), h1 _ (by decide), h1 _ (by decide), h1 _ (by decide), h1 _ (by decide), h1 _ (by decide), h1 _ (by decide), h1 _ (by decide),
          h1 _ (by decide), h1 _ (by decide), h1 _ (by decide), h1 _ (by decide), h1 _ (by decide)⟩
    have hip : ¬ w = iPointer (BitVec.ofNat 16 (w.toNat % 4096)) := fun e => hi (by rw [e]; exact desc_is (by rw [i_desc]; rfl))
    rw [if_neg hi, hcnt, if_neg hip]
    obtain ⟨N, rfl⟩ : ∃ N', N = N' + 1 := ⟨N - 1, by omega⟩
    cases d with
    | num y =>
      have e0 : (layout S.E.K (.num y))[0]? = some (float y) := rfl
      simp only [Match.matchFrom, word0, word1, Nat.add_zero, hw, e0, if_true, word_float _ _ (num_float y) a b c]
      cases hx : num? w with
      | none =>
        have : ¬ w.toNat < 2 ^ 31 := fun h => by simp [num?, h] at hx
        rw [if_neg this]; rfl
      | some x =>
        have : w.toNat < 2 ^ 31 := by have := (num_some hx).2.2; omega
        rw [if_pos this]
        show Match.andThen (some (near S.t x (kept y))) (some true) = some (near S.t x (kept y))
        cases near S.t x (kept y) <;> rfl
    | obj k' ys =>
      have e0 : (layout S.E.K (.obj k' ys))[0]? = some (object k' (BitVec.ofNat 8 ys.length)) := rfl
      simp only [Match.matchFrom, word0, word1, Nat.add_zero, hw, e0, if_true]
      rw [word_other _ _ (fun e => by rw [e, object_desc'] at hd; omega) (.inl (object_desc' _ _)) hi a b c]
      split
      · cases num? w <;> rfl
      · rfl
    | vec ys =>
      have e0 : (layout S.E.K (.vec ys))[0]? = some (object S.E.K.vn 1) := rfl
      simp only [Match.matchFrom, word0, word1, Nat.add_zero, hw, e0, if_true]
      rw [word_other _ _ (fun e => by rw [e, object_desc'] at hd; omega) (.inl (object_desc' _ _)) hi a b c]
      split
      · cases num? w <;> rfl
      · rfl

end Verif.Law
