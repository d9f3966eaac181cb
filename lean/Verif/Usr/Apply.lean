import Verif.Usr.Lemmas
/-!
# One operator
-/
namespace Verif.Usr
open Verif.Atom Verif.Words

/-- Later memory: the code changed at most at `p`, the value array extended. -/
def After (m m' : Mem) (p : Nat) : Prop := (∀ j, j ≠ p → m'.code[j]? = m.code[j]?) ∧ ∃ ws, m'.vals = m.vals ++ ws

/-- A context is not stale. -/
def Fresh (m : Mem) (l : Ctx) : Prop := ∀ g, l.base = .vals g → m.gen = g

/-- An operand at a context, now and as long as the context is not stale. -/
def Got (E : Env) (m : Mem) (p : Nat) (l : Ctx) (a : Val) : Prop :=
  ∃ L, thingAt E.K L l.i = some a ∧ ∀ m', After m m' p → Fresh m' l → ∃ L', codeOf E m' l.base = some L' ∧ Agree L L'

/-- The components after a context. -/
def Comps (E : Env) (m : Mem) (c : Ctx) (xs : List (BitVec 32)) : Prop := ∀ j x, xs[j]? = some x → comp E m c (j + 1) = .ok x

theorem comps_nums {E : Env} {m : Mem} {b : Base} {p n : Nat} {L : Code} {xs : List (BitVec 32)} (h : codeOf E m b = some L)
    (hn : nums L (p + 1) n = some xs) : Comps E m ⟨b, p⟩ xs := fun j x hx => by
  have hl := nums_length hn
  have hj : j < xs.length := (List.getElem?_eq_some_iff.mp hx).1
  obtain ⟨y, h1, h2⟩ := comp_nums h hn (k := j) (by omega)
  rw [hx] at h1
  cases h1
  exact h2

theorem got_num {E : Env} {m : Mem} {p : Nat} {l : Ctx} {x : BitVec 32} (h : Got E m p l (.num x)) :
    ∃ w, num? w = some x ∧ ∀ m', After m m' p → Fresh m' l → word E m' l = .ok w := by
  obtain ⟨L, h1, h2⟩ := h
  rcases thing_shape h1 with ⟨w, y, e1, e2, e3⟩ | h1
  · cases e3
    refine ⟨w, e2, fun m' ha hf => ?_⟩
    obtain ⟨L', c1, c2⟩ := h2 m' ha hf
    exact word_of c1 (c2 _ _ e1 (by have := (num_some e2).2.2; omega))
  · rcases struct_shape h1 with ⟨_, _, _, _, _, _, e⟩ | ⟨_, _, _, _, _, _, _, _, _, e⟩ <;> cases e

theorem got_obj {E : Env} {m : Mem} {p : Nat} {l : Ctx} {k : BitVec 16} {xs : List (BitVec 32)} (h : Got E m p l (.obj k xs)) :
    sized E.K k xs.length ∧ ∀ m', After m m' p → Fresh m' l →
      word E m' l = .ok (object k (BitVec.ofNat 8 xs.length)) ∧ Comps E m' l xs := by
  obtain ⟨L, h1, h2⟩ := h
  rcases thing_shape h1 with ⟨w, y, e1, e2, e3⟩ | h1
  · cases e3
  · rcases struct_shape h1 with ⟨k', n, ys, a1, a2, a3, e⟩ | ⟨_, _, _, _, _, _, _, _, _, e⟩
    · cases e
      have hl := nums_length a3
      rw [hl]
      refine ⟨a1, fun m' ha hf => ?_⟩
      obtain ⟨L', c1, c2⟩ := h2 m' ha hf
      exact ⟨word_of c1 (c2 _ _ a2 (by rw [object_desc']; omega)), comps_nums c1 (nums_agree c2 a3)⟩
    · cases e

theorem got_vec {E : Env} {m : Mem} {p : Nat} {l : Ctx} {xs : List (BitVec 32)} (h : Got E m p l (.vec xs)) :
    xs.length < 256 ∧ ∃ q, ∀ m', After m m' p → Fresh m' l →
      word E m' l = .ok (object E.K.vn 1) ∧ sub E m' l 1 = .ok ⟨l.base, q⟩ ∧
      word E m' ⟨l.base, q⟩ = .ok (set (BitVec.ofNat 8 xs.length)) ∧ Comps E m' ⟨l.base, q⟩ xs := by
  obtain ⟨L, h1, h2⟩ := h
  rcases thing_shape h1 with ⟨w, y, e1, e2, e3⟩ | h1
  · cases e3
  · rcases struct_shape h1 with ⟨_, _, _, _, _, _, e⟩ | ⟨q, n, ys, a1, a2, a3, a4, a5, a6, e⟩
    · cases e
    · cases e
      have hl := nums_length a6
      rw [hl]
      refine ⟨a2, q, fun m' ha hf => ?_⟩
      obtain ⟨L', c1, c2⟩ := h2 m' ha hf
      have w5 : word E m' ⟨l.base, q⟩ = .ok (set (BitVec.ofNat 8 n)) := word_of c1 (c2 _ _ a5 (by rw [set_desc]; omega))
      refine ⟨word_of c1 (c2 _ _ a3 (by rw [object_desc']; omega)), ?_, w5, comps_nums c1 (nums_agree c2 a6)⟩
      have w4 : word E m' ⟨l.base, l.i + 1⟩ = .ok (iPointer (BitVec.ofNat 16 q)) := word_of c1 (c2 _ _ a4 (by rw [i_desc]; omega))
      show deref E m' deep ⟨l.base, l.i + 1⟩ = _
      rw [deep, deref_i a1 w4]
      exact deref_stop w5 (by rw [set_desc]; omega) (by rw [set_desc]; omega) (by rw [set_desc]; omega)

/-! ## Components of results -/

theorem both_comps {E : Env} {m : Mem} {l r : Ctx} {xs ys : List (BitVec 32)} (f : BitVec 32 → BitVec 32 → BitVec 32)
    (hl : Comps E m l xs) (hr : Comps E m r ys) {j : Nat} {y : BitVec 32} (h : (xs.zipWith f ys)[j]? = some y) : both E f l r m (j + 1) = .ok y := by
  rw [List.getElem?_zipWith] at h
  cases ha : xs[j]? with
  | none => simp [ha] at h
  | some a =>
    cases hb : ys[j]? with
    | none => simp [ha, hb] at h
    | some b =>
      simp only [ha, hb] at h
      cases h
      simp [both, hl j a ha, hr j b hb, Res.bind]

theorem left_comps {E : Env} {m : Mem} {l r : Ctx} {w : Word} {a : BitVec 32} {xs : List (BitVec 32)} (f : BitVec 32 → BitVec 32 → BitVec 32)
    (hw : word E m l = .ok w) (ha : num? w = some a) (hr : Comps E m r xs) {j : Nat} {y : BitVec 32} (h : (xs.map (f a))[j]? = some y) :
    left E f l r m (j + 1) = .ok y := by
  rw [List.getElem?_map] at h
  obtain ⟨x, hx, rfl⟩ := Option.map_eq_some_iff.mp h
  simp [left, hw, hr j x hx, Res.bind, (num_some ha).2.1]

theorem right_comps {E : Env} {m : Mem} {l r : Ctx} {w : Word} {a : BitVec 32} {xs : List (BitVec 32)} (f : BitVec 32 → BitVec 32 → BitVec 32)
    (hw : word E m r = .ok w) (ha : num? w = some a) (hl : Comps E m l xs) {j : Nat} {y : BitVec 32} (h : (xs.map (f · a))[j]? = some y) :
    right E f l r m (j + 1) = .ok y := by
  rw [List.getElem?_map] at h
  obtain ⟨x, hx, rfl⟩ := Option.map_eq_some_iff.mp h
  simp [right, hw, hl j x hx, Res.bind, (num_some ha).2.1]

theorem parts_ok {E : Env} {f : Mem → Nat → Res (BitVec 32)} {log : Code} : ∀ (ys : List (BitVec 32)) (k : Nat) (m : Mem),
    (∀ ws : Code, ws.length ≤ ys.length → ∀ j y, ys[j]? = some y → f (pushAll E m ws) (k + j) = .ok y) →
    parts E false f ys.length k ⟨m, log⟩ = .ok ⟨pushAll E m (ys.map float), log⟩
  | [], _, _, _ => rfl
  | y :: ys, k, m, h => by
    have h0 : f m k = .ok y := h [] (by simp) 0 y rfl
    have ih := parts_ok (log := log) ys (k + 1) (push E m (float y)) fun ws hw j z hz => by
      have := h (float y :: ws) (by simpa using hw) (j + 1) z (by simpa using hz)
      rw [show k + 1 + j = k + (j + 1) by omega]
      exact this
    simp only [List.length_cons, parts, h0, Res.bind, part, Bool.false_eq_true, if_false]
    exact ih

/-- What an operator leaves. -/
def Wrote (E : Env) (m : Mem) (p : Nat) (v : Val) (m' : Mem) : Prop :=
  (∃ x w, v = .num x ∧ num? w = some x ∧ m' = patch m p w) ∨
  (∃ ws, 0 < ws.length ∧ ws.length = cost v ∧ structAt E.K (m.vals ++ ws) m.vals.length = some v ∧
    m' = pushAll E (patch m p (valuePointer (BitVec.ofNat 16 m.vals.length))) ws)

theorem fixed_ok {E : Env} {f : Mem → Nat → Res (BitVec 32)} {p : Nat} {k : BitVec 16} {m : Mem} (ys : List (BitVec 32))
    (h : ∀ (w : Word) (ws : Code), ws.length ≤ ys.length + 1 → ∀ j y, ys[j]? = some y → f (pushAll E (patch m p w) ws) (j + 1) = .ok y) :
    fixed E false p k ys.length f ⟨m, []⟩ =
      .ok ⟨pushAll E (patch m p (valuePointer (BitVec.ofNat 16 m.vals.length))) (object k (BitVec.ofNat 8 ys.length) :: ys.map float), []⟩ := by
  have e : head E false p (object k (BitVec.ofNat 8 ys.length)) ⟨m, []⟩ =
      ⟨pushAll E (patch m p (valuePointer (BitVec.ofNat 16 m.vals.length))) [object k (BitVec.ofNat 8 ys.length)], []⟩ := rfl
  rw [fixed, e, parts_ok ys 1 _ fun ws hw j y hy => ?_, ← pushAll_append]
  · rfl
  · rw [← pushAll_append, Nat.add_comm 1 j]
    exact h _ _ (by simp; omega) j y hy

theorem counted_ok {E : Env} {f : Mem → Nat → Res (BitVec 32)} {p : Nat} {m : Mem} (ys : List (BitVec 32))
    (h : ∀ (w : Word) (ws : Code), ws.length ≤ ys.length + 3 → ∀ j y, ys[j]? = some y → f (pushAll E (patch m p w) ws) (j + 1) = .ok y) :
    counted E false p ys.length f ⟨m, []⟩ =
      .ok ⟨pushAll E (patch m p (valuePointer (BitVec.ofNat 16 m.vals.length)))
        (object E.K.vn 1 :: iPointer (BitVec.ofNat 16 (2 + m.vals.length)) :: set (BitVec.ofNat 8 ys.length) :: ys.map float), []⟩ := by
  have e : (part E false (set (BitVec.ofNat 8 ys.length))
      (part E false (iPointer (BitVec.ofNat 16 (2 + m.vals.length)))
        (head E false p (object E.K.vn 1) ⟨m, []⟩))) =
      ⟨pushAll E (patch m p (valuePointer (BitVec.ofNat 16 m.vals.length)))
        [object E.K.vn 1, iPointer (BitVec.ofNat 16 (2 + m.vals.length)), set (BitVec.ofNat 8 ys.length)], []⟩ := rfl
  rw [counted]
  show parts E false f ys.length 1 (part E false (set (BitVec.ofNat 8 ys.length))
      (part E false (iPointer (BitVec.ofNat 16 (2 + m.vals.length)))
        (head E false p (object E.K.vn 1) ⟨m, []⟩))) = _
  rw [e, parts_ok ys 1 _ fun ws hw j y hy => ?_, ← pushAll_append]
  · rfl
  · rw [← pushAll_append, Nat.add_comm 1 j]
    exact h _ _ (by simp; omega) j y hy

theorem struct_obj {K : Classes} (hK : K.apart) (L : Code) {k : BitVec 16} {ys : List (BitVec 32)} (hs : sized K k ys.length) :
    structAt K (L ++ object k (BitVec.ofNat 8 ys.length) :: ys.map float) L.length = some (.obj k (ys.map kept)) := by
  have h1 : (L ++ object k (BitVec.ofNat 8 ys.length) :: ys.map float)[L.length]? = some (object k (BitVec.ofNat 8 ys.length)) := by simp
  have h2 := nums_floats (L ++ [object k (BitVec.ofNat 8 ys.length)]) ys []
  simp only [List.length_append, List.length_cons, List.length_nil, List.append_assoc, List.singleton_append, Nat.zero_add, List.append_nil] at h2
  obtain ⟨hp, hlt⟩ := hK
  simp only [List.pairwise_cons, List.mem_cons, List.not_mem_nil, or_false, forall_eq_or_imp, forall_eq] at hp hlt
  have inj : ∀ {j i : BitVec 16} {a b : BitVec 8}, i.toNat < 4096 → j.toNat < 4096 → object i a = object j b → i = j := fun hi hj e => by
    rw [← object_op hi, e, object_op hj]
  simp only [structAt, h1, Option.bind_some]
  rcases hs with ⟨rfl, hn⟩ | ⟨rfl, hn⟩ | ⟨rfl, hn⟩
  · rw [hn] at h1 h2 ⊢
    rw [if_pos (show object K.v3 3#8 = object K.v3 3 from rfl), h2]; rfl
  · rw [hn] at h1 h2 ⊢
    rw [if_neg fun e => hp.1.1 (inj hlt.2.1 hlt.1 e).symm, if_pos (show object K.v2 2#8 = object K.v2 2 from rfl), h2]; rfl
  · rw [hn] at h1 h2 ⊢
    rw [if_neg fun e => hp.1.2.2 (inj hlt.2.2.2 hlt.1 e).symm, if_neg fun e => hp.2.1.2 (inj hlt.2.2.2 hlt.2.1 e).symm,
      if_pos (show object K.qt 4#8 = object K.qt 4 from rfl), h2]; rfl

theorem struct_vec {K : Classes} (hK : K.apart) (L : Code) {ys : List (BitVec 32)} (hl : L.length + ys.length + 3 ≤ 4096) (hn : ys.length < 256) :
    structAt K (L ++ object K.vn 1 :: iPointer (BitVec.ofNat 16 (2 + L.length)) :: set (BitVec.ofNat 8 ys.length) :: ys.map float) L.length =
      some (.vec (ys.map kept)) := by
  generalize hR : L ++ object K.vn 1 :: iPointer (BitVec.ofNat 16 (2 + L.length)) :: set (BitVec.ofNat 8 ys.length) :: ys.map float = R
  have h1 : R[L.length]? = some (object K.vn 1) := by rw [← hR]; simp
  have h2 : R[L.length + 1]? = some (iPointer (BitVec.ofNat 16 (2 + L.length))) := by
    rw [← hR, List.getElem?_append_right (by omega)]; simp
  have h3 : R[L.length + 2]? = some (set (BitVec.ofNat 8 ys.length)) := by
    rw [← hR, List.getElem?_append_right (by omega), show L.length + 2 - L.length = 2 by omega]; rfl
  have h4 : nums R (L.length + 2 + 1) ys.length = some (ys.map kept) := by
    have := nums_floats (L ++ [object K.vn 1, iPointer (BitVec.ofNat 16 (2 + L.length)), set (BitVec.ofNat 8 ys.length)]) ys []
    simp only [List.append_assoc, List.cons_append, List.nil_append, List.append_nil] at this
    rw [hR] at this
    simpa using this
  obtain ⟨hp, hlt⟩ := hK
  simp only [List.pairwise_cons, List.mem_cons, List.not_mem_nil, or_false, forall_eq_or_imp, forall_eq] at hp hlt
  have inj : ∀ {j i : BitVec 16} {a b : BitVec 8}, i.toNat < 4096 → j.toNat < 4096 → object i a = object j b → i = j := fun hi hj e => by
    rw [← object_op hi, e, object_op hj]
  have hi : (iPointer (BitVec.ofNat 16 (2 + L.length))).toNat % 4096 = L.length + 2 := by
    rw [iPointer, ptr_toNat, BitVec.toNat_ofNat]; omega
  have hs : (Atom.set (BitVec.ofNat 8 ys.length)).toNat % 256 = ys.length := by rw [set_toNat, BitVec.toNat_ofNat]; omega
  simp only [structAt, h1, Option.bind_some]
  rw [if_neg fun e => hp.1.2.1 (inj hlt.2.2.1 hlt.1 e).symm, if_neg fun e => hp.2.1.1 (inj hlt.2.2.1 hlt.2.1 e).symm,
    if_neg fun e => hp.2.2.1 (inj hlt.2.2.1 hlt.2.2.2 e), if_pos trivial, h2, Option.bind_some, hi, if_pos (by rw [Nat.add_comm]), setAt, h3, Option.bind_some,
    hs, if_pos rfl, h4]
  rfl

/-! ## Overloads -/

/-- The setting of an application: the operands stay readable while `n` words are written. -/
structure Ready (E : Env) (m : Mem) (p : Nat) (l r : Ctx) (n : Nat) : Prop where
  fl : Fresh m l
  fr : Fresh m r
  safe : ((∀ g, l.base ≠ .vals g) ∧ ∀ g, r.base ≠ .vals g) ∨ m.vals.length + n ≤ m.cap
  room : m.vals.length + n ≤ 4096

theorem after_refl (m : Mem) (p : Nat) : After m m p := ⟨fun _ _ => rfl, [], by simp⟩

theorem after_push (E : Env) (m : Mem) (p : Nat) (w : Word) (ws : Code) : After m (pushAll E (patch m p w) ws) p := by
  refine ⟨fun j hj => ?_, ws, ?_⟩
  · rw [pushAll_code]
    simp only [patch]
    rw [List.getElem?_set_ne (Ne.symm hj)]
  · rw [pushAll_vals]; rfl

theorem Ready.push {E : Env} {m : Mem} {p n : Nat} {l r : Ctx} (h : Ready E m p l r n) (w : Word) {ws : Code} (hw : ws.length ≤ n) :
    Fresh (pushAll E (patch m p w) ws) l ∧ Fresh (pushAll E (patch m p w) ws) r := by
  rcases h.safe with ⟨a, b⟩ | hs
  · exact ⟨fun g hg => absurd hg (a g), fun g hg => absurd hg (b g)⟩
  · have := (pushAll_quiet E ws (patch m p w) (by simp only [patch]; omega)).1
    exact ⟨fun g hg => this.trans (h.fl g hg), fun g hg => this.trans (h.fr g hg)⟩

theorem fixed_wrote {E : Env} (hK : E.K.apart) {f : Mem → Nat → Res (BitVec 32)} {p n : Nat} {k : BitVec 16} {m : Mem} {l r : Ctx}
    (ys : List (BitVec 32)) (hn : ys.length = n) (hs : sized E.K k n) (hr : Ready E m p l r (n + 1))
    (h : ∀ m', After m m' p → Fresh m' l → Fresh m' r → ∀ j y, ys[j]? = some y → f m' (j + 1) = .ok y) :
    ∃ m', yes (fixed E false p k n f ⟨m, []⟩) = .ok (⟨m', []⟩, true) ∧ Wrote E m p (.obj k (ys.map kept)) m' := by
  subst hn
  have e := fixed_ok (E := E) (f := f) (p := p) (k := k) (m := m) ys fun w ws hw j y hy =>
    h _ (after_push E m p w ws) (hr.push w hw).1 (hr.push w hw).2 j y hy
  refine ⟨_, by rw [e]; rfl, .inr ⟨_, ?_, ?_, struct_obj hK _ hs, rfl⟩⟩ <;> simp [cost]

theorem counted_wrote {E : Env} (hK : E.K.apart) {f : Mem → Nat → Res (BitVec 32)} {p n : Nat} {m : Mem} {l r : Ctx}
    (ys : List (BitVec 32)) (hn : ys.length = n) (hn' : n < 256) (hr : Ready E m p l r (n + 3))
    (h : ∀ m', After m m' p → Fresh m' l → Fresh m' r → ∀ j y, ys[j]? = some y → f m' (j + 1) = .ok y) :
    ∃ m', yes (counted E false p n f ⟨m, []⟩) = .ok (⟨m', []⟩, true) ∧ Wrote E m p (.vec (ys.map kept)) m' := by
  subst hn
  have e := counted_ok (E := E) (f := f) (p := p) (m := m) ys fun w ws hw j y hy =>
    h _ (after_push E m p w ws) (hr.push w hw).1 (hr.push w hw).2 j y hy
  have := hr.room
  refine ⟨_, by rw [e]; rfl, .inr ⟨_, ?_, ?_, struct_vec hK _ (by omega) hn', rfl⟩⟩ <;> simp [cost]

theorem Classes.apart.ne {K : Classes} (h : K.apart) :
    K.v3 ≠ K.v2 ∧ K.v3 ≠ K.vn ∧ K.v3 ≠ K.qt ∧ K.v2 ≠ K.vn ∧ K.v2 ≠ K.qt ∧ K.vn ≠ K.qt ∧
    K.v3.toNat < 4096 ∧ K.v2.toNat < 4096 ∧ K.vn.toNat < 4096 ∧ K.qt.toNat < 4096 := by
  obtain ⟨hp, hlt⟩ := h
  simp only [List.pairwise_cons, List.mem_cons, List.not_mem_nil, or_false, forall_eq_or_imp, forall_eq] at hp hlt
  exact ⟨hp.1.1, hp.1.2.1, hp.1.2.2, hp.2.1.1, hp.2.1.2, hp.2.2.1, hlt.1, hlt.2.1, hlt.2.2.1, hlt.2.2.2⟩

theorem is_object {k j : BitVec 16} (hk : k.toNat < 4096) (n : BitVec 8) : is (object k n) j = (k == j) := by
  unfold is; rw [object_op hk]

theorem object_float (k : BitVec 16) (n : BitVec 8) : isFloat (object k n) = false := by
  rw [isFloat_eq, decide_eq_false_iff_not]
  have := object_desc' k n
  omega

theorem set_len {n : Nat} (hn : n < 256) : (getAtomCount (set (BitVec.ofNat 8 n))).toNat = n := by
  rw [set_count, BitVec.toNat_ofNat]; omega

theorem addSub_ok {E : Env} (hK : E.K.apart) {f : BitVec 32 → BitVec 32 → BitVec 32} {m : Mem} {p : Nat} {l r : Ctx} {a b v : Val} {wl wr : Word}
    (hl : Got E m p l a) (hr : Got E m p r b) (wl1 : word E m l = .ok wl) (wr1 : word E m r = .ok wr) (hR : Ready E m p l r (cost v))
    (hv : (∃ k xs ys, k ≠ E.K.qt ∧ a = .obj k xs ∧ b = .obj k ys ∧ v = .obj k (zip f xs ys)) ∨
      (∃ xs ys, a = .vec xs ∧ b = .vec ys ∧ xs.length = ys.length ∧ v = .vec (zip f xs ys))) :
    ∃ m', addSub E f false p l r wl wr ⟨m, []⟩ = .ok (⟨m', []⟩, true) ∧ Wrote E m p v m' := by
  obtain ⟨n1, n2, n3, n4, n5, n6, l1, l2, l3, l4⟩ := hK.ne
  rcases hv with ⟨k, xs, ys, hk, rfl, rfl, rfl⟩ | ⟨xs, ys, rfl, rfl, hlen, rfl⟩
  · obtain ⟨s1, g1⟩ := got_obj hl
    obtain ⟨s2, g2⟩ := got_obj hr
    have e1 := (g1 m (after_refl m p) hR.fl).1
    have e2 := (g2 m (after_refl m p) hR.fr).1
    rw [wl1] at e1
    rw [wr1] at e2
    cases e1
    cases e2
    have hxy : xs.length = ys.length := by
      rcases s1 with ⟨h1, h1'⟩ | ⟨h1, h1'⟩ | ⟨h1, h1'⟩ <;> rcases s2 with ⟨h2, h2'⟩ | ⟨h2, h2'⟩ | ⟨h2, h2'⟩ <;> subst h1 <;>
        first | omega | exact absurd h2 (by assumption) | exact absurd h2.symm (by assumption) | exact absurd rfl hk
    have hz : (xs.zipWith f ys).length = xs.length := by rw [List.length_zipWith]; omega
    have hR' : Ready E m p l r (xs.length + 1) := by
      have : cost (.obj k (zip f xs ys)) = xs.length + 1 := by simp [cost, zip]; omega
      rw [← this]; exact hR
    have rd : ∀ m', After m m' p → Fresh m' l → Fresh m' r → ∀ j y, (xs.zipWith f ys)[j]? = some y → both E f l r m' (j + 1) = .ok y :=
      fun m' ha h1 h2 j y hy => both_comps f (g1 m' ha h1).2 (g2 m' ha h2).2 hy
    have W := fun k' (hs : sized E.K k' xs.length) => fixed_wrote hK (k := k') (xs.zipWith f ys) hz hs hR' rd
    rcases s1 with ⟨rfl, h3⟩ | ⟨rfl, h3⟩ | ⟨rfl, h3⟩
    · have := W E.K.v3 (.inl ⟨rfl, h3⟩)
      rw [h3] at this
      simp only [addSub, is_object l1, beq_self_eq_true, Bool.and_self, if_true]
      exact this
    · have := W E.K.v2 (.inr (.inl ⟨rfl, h3⟩))
      rw [h3] at this
      simp only [addSub, is_object l2, beq_eq_false_iff_ne.mpr n1.symm, beq_self_eq_true, Bool.and_self, if_true, Bool.false_eq_true, if_false]
      exact this
    · exact absurd rfl hk
  · obtain ⟨s1, q1, g1⟩ := got_vec hl
    obtain ⟨s2, q2, g2⟩ := got_vec hr
    obtain ⟨a1, a2, a3, a4⟩ := g1 m (after_refl m p) hR.fl
    obtain ⟨b1, b2, b3, b4⟩ := g2 m (after_refl m p) hR.fr
    rw [wl1] at a1
    rw [wr1] at b1
    cases a1
    cases b1
    have hz : (xs.zipWith f ys).length = ys.length := by rw [List.length_zipWith]; omega
    have hR' : Ready E m p l r (ys.length + 3) := by
      have : cost (.vec (zip f xs ys)) = ys.length + 3 := by simp [cost, zip]; omega
      rw [← this]; exact hR
    have rd : ∀ m', After m m' p → Fresh m' l → Fresh m' r → ∀ j y, (xs.zipWith f ys)[j]? = some y →
        both E f ⟨l.base, q1⟩ ⟨r.base, q2⟩ m' (j + 1) = .ok y :=
      fun m' ha h1 h2 j y hy => both_comps f (g1 m' ha h1).2.2.2 (g2 m' ha h2).2.2.2 hy
    have := counted_wrote hK (xs.zipWith f ys) hz s2 hR' rd
    simp only [addSub, is_object l3, beq_eq_false_iff_ne.mpr n2.symm, beq_eq_false_iff_ne.mpr n4.symm, beq_self_eq_true, Bool.and_self, if_true,
      Bool.false_eq_true, if_false, a2, b2, Res.bind, a3, b3, hlen, set_len s2]
    exact this

theorem wrote_num {E : Env} {m : Mem} {p : Nat} {x : BitVec 32} : Wrote E m p (.num (kept x)) (patch m p (float x)) :=
  .inl ⟨_, _, rfl, num_float x, rfl⟩

theorem squares_ok {E : Env} {l r : Ctx} {m : Mem} : ∀ (ds : List (BitVec 32)) (k : Nat) (s : BitVec 32),
    (∀ j d, ds[j]? = some d → both E E.A.sub l r m (k + j) = .ok d) → squares E l r m ds.length k s = .ok (norm2 E.A s ds)
  | [], _, _, _ => rfl
  | d :: ds, k, s, h => by
    have h0 : both E E.A.sub l r m k = .ok d := h 0 d rfl
    simp only [List.length_cons, squares, h0, Res.bind]
    rw [squares_ok ds (k + 1) _ fun j e he => by rw [show k + 1 + j = k + (j + 1) by omega]; exact h (j + 1) e (by simpa using he)]
    rfl

theorem disOp_ok {E : Env} (hK : E.K.apart) {m : Mem} {p : Nat} {l r : Ctx} {a b v : Val} {wl wr : Word}
    (hl : Got E m p l a) (hr : Got E m p r b) (wl1 : word E m l = .ok wl) (wr1 : word E m r = .ok wr) (fl : Fresh m l) (fr : Fresh m r)
    (hn : ∀ x y, ¬ (a = .num x ∧ b = .num y)) (hv : compute E.A E.K false .dis a b = some v) :
    ∃ m', disOp E false p l r wl wr ⟨m, []⟩ = .ok (⟨m', []⟩, true) ∧ Wrote E m p v m' := by
  obtain ⟨n1, n2, n3, n4, n5, n6, l1, l2, l3, l4⟩ := hK.ne
  cases a with
  | num x => cases b <;> simp [compute, numbers] at hv
  | obj k xs =>
    cases b with
    | num y => simp [compute] at hv
    | vec ys => simp [compute] at hv
    | obj j ys =>
      simp only [compute] at hv
      split_ifs at hv with hk
      obtain ⟨rfl, hk⟩ := hk
      obtain ⟨s1, g1⟩ := got_obj hl
      obtain ⟨s2, g2⟩ := got_obj hr
      obtain ⟨e1, c1⟩ := g1 m (after_refl m p) fl
      obtain ⟨e2, c2⟩ := g2 m (after_refl m p) fr
      rw [wl1] at e1
      rw [wr1] at e2
      cases e1
      cases e2
      have hxy : xs.length = ys.length := by
        rcases s1 with ⟨h1, h1'⟩ | ⟨h1, h1'⟩ | ⟨h1, h1'⟩ <;> rcases s2 with ⟨h2, h2'⟩ | ⟨h2, h2'⟩ | ⟨h2, h2'⟩ <;> subst h1 <;>
          first | omega | exact absurd h2 (by assumption) | exact absurd h2.symm (by assumption) | exact absurd rfl hk
      have hz : (xs.zipWith E.A.sub ys).length = xs.length := by rw [List.length_zipWith]; omega
      cases hd : xs.zipWith E.A.sub ys with
      | nil => simp [hd] at hv
      | cons d ds =>
        simp only [hd] at hv
        cases hv
        have rd : ∀ j e, (d :: ds)[j]? = some e → both E E.A.sub l r m (j + 1) = .ok e := fun j e he => both_comps E.A.sub c1 c2 (by rw [hd]; exact he)
        have h0 := rd 0 d rfl
        have hs : squares E l r m ds.length 2 (E.A.mul d d) = .ok (norm2 E.A (E.A.mul d d) ds) :=
          squares_ok ds 2 _ fun j e he => by rw [show 2 + j = (j + 1) + 1 by omega]; exact rd (j + 1) e (by simpa using he)
        have hlen : ds.length + 1 = xs.length := by rw [← hz, hd]; rfl
        rcases s1 with ⟨rfl, h3⟩ | ⟨rfl, h3⟩ | ⟨rfl, h3⟩
        · rw [show ds.length = 2 by omega] at hs
          simp only [disOp, is_object l1, beq_self_eq_true, Bool.and_self, if_true, firstSquare, h0, Res.bind, hs, root]
          exact ⟨_, rfl, wrote_num⟩
        · rw [show ds.length = 1 by omega] at hs
          simp only [disOp, is_object l2, beq_eq_false_iff_ne.mpr n1.symm, beq_self_eq_true, Bool.and_self, if_true, Bool.false_eq_true, if_false,
            firstSquare, h0, Res.bind, hs, root]
          exact ⟨_, rfl, wrote_num⟩
        · exact absurd rfl hk
  | vec xs =>
    cases b with
    | num y => simp [compute] at hv
    | obj j ys => simp [compute] at hv
    | vec ys =>
      simp only [compute] at hv
      split_ifs at hv with hlen
      cases hv
      obtain ⟨s1, q1, g1⟩ := got_vec hl
      obtain ⟨s2, q2, g2⟩ := got_vec hr
      obtain ⟨a1, a2, a3, a4⟩ := g1 m (after_refl m p) fl
      obtain ⟨b1, b2, b3, b4⟩ := g2 m (after_refl m p) fr
      rw [wl1] at a1
      rw [wr1] at b1
      cases a1
      cases b1
      have hz : (xs.zipWith E.A.sub ys).length = ys.length := by rw [List.length_zipWith]; omega
      have hs := squares_ok (E := E) (l := ⟨l.base, q1⟩) (r := ⟨r.base, q2⟩) (m := m) (xs.zipWith E.A.sub ys) 1 0 fun j e he => by
        rw [Nat.add_comm 1 j]; exact both_comps E.A.sub a4 b4 he
      rw [hz] at hs
      simp only [disOp, is_object l3, beq_eq_false_iff_ne.mpr n2.symm, beq_eq_false_iff_ne.mpr n4.symm, beq_self_eq_true, Bool.and_self, if_true,
        Bool.false_eq_true, if_false, a2, b2, Res.bind, a3, b3, hlen, set_len s2, hs, root]
      exact ⟨_, rfl, wrote_num⟩

end Verif.Usr
