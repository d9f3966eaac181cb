import Verif.Usr.Apply
/-!
# Products, quotients and application
-/
namespace Verif.Usr
open Verif.Atom Verif.Words

theorem four_ok {E : Env} {m : Mem} {c : Ctx} {xs : List (BitVec 32)} (h : Comps E m c xs) (hl : xs.length = 4) : four E m c = .ok xs := by
  match xs, hl with
  | [a, b, c', d], _ =>
    have h1 := h 0 a rfl
    have h2 := h 1 b rfl
    have h3 := h 2 c' rfl
    have h4 := h 3 d rfl
    simp only [Nat.zero_add, Nat.reduceAdd] at h1 h2 h3 h4
    simp [four, h1, h2, h3, h4, Res.bind]

theorem quat_product (A : Arith) {xs ys : List (BitVec 32)} (hx : xs.length = 4) (hy : ys.length = 4) :
    quatMul A.add A.sub A.mul A.neg A.hundredth xs ys = qmul A xs ys ∧ (qmul A xs ys).length = 4 := by
  match xs, hx, ys, hy with
  | [a, b, c, d], _, [e, f, g, h], _ => exact ⟨rfl, rfl⟩

theorem quat_quotient (A : Arith) {xs ys : List (BitVec 32)} (hx : xs.length = 4) (hy : ys.length = 4) :
    quatDiv A.add A.sub A.mul A.neg A.hundredth A.negative xs ys = qdiv A xs ys ∧ (qdiv A xs ys).length = 4 := by
  match xs, hx, ys, hy with
  | [a, b, c, d], _, [e, f, g, h], _ =>
    refine ⟨rfl, ?_⟩
    simp only [qdiv, qconj, qmul, List.map]
    split <;> rfl

theorem given_ok (ys : List (BitVec 32)) (m : Mem) {j : Nat} {y : BitVec 32} (h : ys[j]? = some y) : given ys m (j + 1) = .ok y := by
  simp [given, h, Res.of]

/-- The operand is a structure of a class that is not that of quaternions, or a vector, to be scaled. -/
theorem scale_left {E : Env} (hK : E.K.apart) {m : Mem} {p : Nat} {l r : Ctx} {x : BitVec 32} {b v : Val} {wl wr : Word}
    (hl : Got E m p l (.num x)) (hr : Got E m p r b) (wl1 : word E m l = .ok wl) (wr1 : word E m r = .ok wr) (hR : Ready E m p l r (cost v))
    (hv : (∃ k ys, k ≠ E.K.qt ∧ b = .obj k ys ∧ v = .obj k (ys.map fun y => kept (E.A.mul x y))) ∨
      (∃ ys, b = .vec ys ∧ v = .vec (ys.map fun y => kept (E.A.mul x y)))) :
    ∃ m', mulOp E false p l r wl wr ⟨m, []⟩ = .ok (⟨m', []⟩, true) ∧ Wrote E m p v m' := by
  obtain ⟨n1, n2, n3, n4, n5, n6, l1, l2, l3, l4⟩ := hK.ne
  obtain ⟨w, hw, gw⟩ := got_num hl
  have e := gw m (after_refl m p) hR.fl
  rw [wl1] at e
  cases e
  have hf := (num_some hw).1
  rcases hv with ⟨k, ys, hk, rfl, rfl⟩ | ⟨ys, rfl, rfl⟩
  · obtain ⟨s2, g2⟩ := got_obj hr
    have e2 := (g2 m (after_refl m p) hR.fr).1
    rw [wr1] at e2
    cases e2
    have hR' : Ready E m p l r (ys.length + 1) := by
      have : cost (.obj k (ys.map fun y => kept (E.A.mul x y))) = ys.length + 1 := by simp [cost]
      rw [← this]; exact hR
    have rd : ∀ m', After m m' p → Fresh m' l → Fresh m' r → ∀ j y, (ys.map (E.A.mul x))[j]? = some y → left E E.A.mul l r m' (j + 1) = .ok y :=
      fun m' ha h1 h2 j y hy => left_comps E.A.mul (gw m' ha h1) hw (g2 m' ha h2).2 hy
    have W := fun k' (hs : sized E.K k' ys.length) => fixed_wrote hK (k := k') (ys.map (E.A.mul x)) (by simp) hs hR' rd
    simp only [List.map_map] at W
    rcases s2 with ⟨rfl, h3⟩ | ⟨rfl, h3⟩ | ⟨rfl, h3⟩
    · have := W E.K.v3 (.inl ⟨rfl, h3⟩)
      rw [h3] at this
      simp only [mulOp, hf, if_true, is_object l1, beq_self_eq_true]
      exact this
    · have := W E.K.v2 (.inr (.inl ⟨rfl, h3⟩))
      rw [h3] at this
      simp only [mulOp, hf, if_true, is_object l2, beq_eq_false_iff_ne.mpr n1.symm, beq_self_eq_true, Bool.false_eq_true, if_false]
      exact this
    · exact absurd rfl hk
  · obtain ⟨s2, q2, g2⟩ := got_vec hr
    obtain ⟨b1, b2, b3, b4⟩ := g2 m (after_refl m p) hR.fr
    rw [wr1] at b1
    cases b1
    have hR' : Ready E m p l r (ys.length + 3) := by
      have : cost (.vec (ys.map fun y => kept (E.A.mul x y))) = ys.length + 3 := by simp [cost]
      rw [← this]; exact hR
    have rd : ∀ m', After m m' p → Fresh m' l → Fresh m' r → ∀ j y, (ys.map (E.A.mul x))[j]? = some y →
        left E E.A.mul l ⟨r.base, q2⟩ m' (j + 1) = .ok y :=
      fun m' ha h1 h2 j y hy => left_comps E.A.mul (gw m' ha h1) hw (g2 m' ha h2).2.2.2 hy
    have := counted_wrote hK (ys.map (E.A.mul x)) (by simp) s2 hR' rd
    simp only [List.map_map] at this
    simp only [mulOp, hf, if_true, is_object l3, beq_eq_false_iff_ne.mpr n2.symm, beq_eq_false_iff_ne.mpr n4.symm, beq_self_eq_true,
      Bool.false_eq_true, if_false, b2, Res.bind, b3, set_len s2]
    exact this

/-- A product or quotient with a number on the right. -/
theorem scale_right {E : Env} (hK : E.K.apart) {f : BitVec 32 → BitVec 32 → BitVec 32} {m : Mem} {p : Nat} {l r : Ctx} {x : BitVec 32} {a v : Val}
    {wl wr : Word} {go : Out → Res (Out × Bool)}
    (hl : Got E m p l a) (hr : Got E m p r (.num x)) (wl1 : word E m l = .ok wl) (wr1 : word E m r = .ok wr) (hR : Ready E m p l r (cost v))
    (hv : (∃ k ys, k ≠ E.K.qt ∧ a = .obj k ys ∧ v = .obj k (ys.map fun y => kept (f y x))) ∨
      (∃ ys, a = .vec ys ∧ v = .vec (ys.map fun y => kept (f y x))))
    (g3 : isFloat wl = false → is wl E.K.v3 = true → num? wr = some x → go = fun o => yes (fixed E false p E.K.v3 3 (right E f l r) o))
    (g2 : isFloat wl = false → is wl E.K.v3 = false → is wl E.K.v2 = true → num? wr = some x →
      go = fun o => yes (fixed E false p E.K.v2 2 (right E f l r) o))
    (gn : isFloat wl = false → is wl E.K.v3 = false → is wl E.K.v2 = false → is wl E.K.vn = true → num? wr = some x →
      go = fun o => (sub E o.m l 1).bind fun lv => (word E o.m lv).bind fun a => yes (counted E false p (getAtomCount a).toNat (right E f lv r) o)) :
    ∃ m', go ⟨m, []⟩ = .ok (⟨m', []⟩, true) ∧ Wrote E m p v m' := by
  obtain ⟨n1, n2, n3, n4, n5, n6, l1, l2, l3, l4⟩ := hK.ne
  obtain ⟨w, hw, gw⟩ := got_num hr
  have e := gw m (after_refl m p) hR.fr
  rw [wr1] at e
  cases e
  rcases hv with ⟨k, ys, hk, rfl, rfl⟩ | ⟨ys, rfl, rfl⟩
  · obtain ⟨s2, gl⟩ := got_obj hl
    have e2 := (gl m (after_refl m p) hR.fl).1
    rw [wl1] at e2
    cases e2
    have hR' : Ready E m p l r (ys.length + 1) := by
      have : cost (.obj k (ys.map fun y => kept (f y x))) = ys.length + 1 := by simp [cost]
      rw [← this]; exact hR
    have rd : ∀ m', After m m' p → Fresh m' l → Fresh m' r → ∀ j y, (ys.map (f · x))[j]? = some y → right E f l r m' (j + 1) = .ok y :=
      fun m' ha h1 h2 j y hy => right_comps f (gw m' ha h2) hw (gl m' ha h1).2 hy
    have W := fun k' (hs : sized E.K k' ys.length) => fixed_wrote hK (k := k') (ys.map (f · x)) (by simp) hs hR' rd
    simp only [List.map_map] at W
    rcases s2 with ⟨rfl, h3⟩ | ⟨rfl, h3⟩ | ⟨rfl, h3⟩
    · have := W E.K.v3 (.inl ⟨rfl, h3⟩)
      rw [h3] at this
      rw [g3 (object_float _ _) (by simp [is_object l1]) hw]
      exact this
    · have := W E.K.v2 (.inr (.inl ⟨rfl, h3⟩))
      rw [h3] at this
      rw [g2 (object_float _ _) (by simp [is_object l2, n1.symm]) (by simp [is_object l2]) hw]
      exact this
    · exact absurd rfl hk
  · obtain ⟨s2, q2, gl⟩ := got_vec hl
    obtain ⟨b1, b2, b3, b4⟩ := gl m (after_refl m p) hR.fl
    rw [wl1] at b1
    cases b1
    have hR' : Ready E m p l r (ys.length + 3) := by
      have : cost (.vec (ys.map fun y => kept (f y x))) = ys.length + 3 := by simp [cost]
      rw [← this]; exact hR
    have rd : ∀ m', After m m' p → Fresh m' l → Fresh m' r → ∀ j y, (ys.map (f · x))[j]? = some y →
        right E f ⟨l.base, q2⟩ r m' (j + 1) = .ok y :=
      fun m' ha h1 h2 j y hy => right_comps f (gw m' ha h2) hw (gl m' ha h1).2.2.2 hy
    have := counted_wrote hK (ys.map (f · x)) (by simp) s2 hR' rd
    simp only [List.map_map] at this
    rw [gn (object_float _ _) (by simp [is_object l3, n2.symm]) (by simp [is_object l3, n4.symm]) (by simp [is_object l3]) hw]
    simp only [b2, Res.bind, b3, set_len s2]
    exact this

theorem mulOp_ok {E : Env} (hK : E.K.apart) {m : Mem} {p : Nat} {l r : Ctx} {a b v : Val} {wl wr : Word}
    (hl : Got E m p l a) (hr : Got E m p r b) (wl1 : word E m l = .ok wl) (wr1 : word E m r = .ok wr) (hR : Ready E m p l r (cost v))
    (hn : ∀ x y, ¬ (a = .num x ∧ b = .num y)) (hv : compute E.A E.K false .mul a b = some v) :
    ∃ m', mulOp E false p l r wl wr ⟨m, []⟩ = .ok (⟨m', []⟩, true) ∧ Wrote E m p v m' := by
  obtain ⟨n1, n2, n3, n4, n5, n6, l1, l2, l3, l4⟩ := hK.ne
  have SR := fun (x : BitVec 32) (hb : b = .num x) (hv' : (∃ k ys, k ≠ E.K.qt ∧ a = .obj k ys ∧ v = .obj k (ys.map fun y => kept (E.A.mul y x))) ∨
      (∃ ys, a = .vec ys ∧ v = .vec (ys.map fun y => kept (E.A.mul y x)))) => by
    subst hb
    exact scale_right hK (f := E.A.mul) (go := fun o => mulOp E false p l r wl wr o) hl hr wl1 wr1 hR hv'
      (fun h1 h2 h3 => by funext o; simp [mulOp, h1, h2, (num_some h3).1])
      (fun h1 h2 h3 h4 => by funext o; simp [mulOp, h1, h2, h3, (num_some h4).1])
      (fun h1 h2 h3 h4 h5 => by funext o; simp [mulOp, h1, h2, h3, h4, (num_some h5).1])
  cases a with
  | num x =>
    cases b with
    | num y => exact absurd ⟨rfl, rfl⟩ (hn x y)
    | obj k ys =>
      simp only [compute] at hv
      split_ifs at hv with hk
      cases hv
      exact scale_left hK hl hr wl1 wr1 hR (.inl ⟨k, ys, hk, rfl, rfl⟩)
    | vec ys =>
      simp only [compute] at hv
      cases hv
      exact scale_left hK hl hr wl1 wr1 hR (.inr ⟨ys, rfl, rfl⟩)
  | vec xs =>
    cases b with
    | num y =>
      simp only [compute] at hv
      cases hv
      exact SR y rfl (.inr ⟨xs, rfl, rfl⟩)
    | obj k ys => simp [compute] at hv
    | vec ys => simp [compute] at hv
  | obj k xs =>
    cases b with
    | num y =>
      simp only [compute] at hv
      split_ifs at hv with hk
      cases hv
      exact SR y rfl (.inl ⟨k, xs, hk, rfl, rfl⟩)
    | vec ys => simp [compute] at hv
    | obj j ys =>
      simp only [compute] at hv
      have hk : k = E.K.qt ∧ j = E.K.qt := Decidable.byContradiction fun h => by rw [if_neg h] at hv; cases hv
      rw [if_pos hk] at hv
      obtain ⟨rfl, rfl⟩ := hk
      cases hv
      obtain ⟨s1, g1⟩ := got_obj hl
      obtain ⟨s2, g2⟩ := got_obj hr
      obtain ⟨e1, c1⟩ := g1 m (after_refl m p) hR.fl
      obtain ⟨e2, c2⟩ := g2 m (after_refl m p) hR.fr
      rw [wl1] at e1
      rw [wr1] at e2
      cases e1
      cases e2
      have h4 : ∀ {zs : List (BitVec 32)}, sized E.K E.K.qt zs.length → zs.length = 4 := fun h => by
        rcases h with ⟨h, _⟩ | ⟨h, _⟩ | ⟨_, h⟩
        · exact absurd h.symm n3
        · exact absurd h.symm n5
        · exact h
      obtain ⟨e3, e4⟩ := quat_product E.A (h4 s1) (h4 s2)
      have hR' : Ready E m p l r (4 + 1) := by
        have : cost (.obj E.K.qt ((qmul E.A xs ys).map kept)) = 4 + 1 := by simp [cost, e4]
        rw [← this]; exact hR
      have := fixed_wrote hK (k := E.K.qt) (f := given (qmul E.A xs ys)) (qmul E.A xs ys) e4 (.inr (.inr ⟨rfl, rfl⟩)) hR'
        fun m' _ _ _ j y hy => given_ok _ m' hy
      simp only [mulOp, object_float, Bool.false_eq_true, if_false, is_object l4, beq_eq_false_iff_ne.mpr n3.symm, beq_eq_false_iff_ne.mpr n5.symm,
        beq_eq_false_iff_ne.mpr n6.symm, beq_self_eq_true, Bool.and_self, if_true, four_ok c1 (h4 s1), four_ok c2 (h4 s2), Res.bind, e3]
      exact this

theorem divOp_ok {E : Env} (hK : E.K.apart) {m : Mem} {p : Nat} {l r : Ctx} {a b v : Val} {wl wr : Word}
    (hl : Got E m p l a) (hr : Got E m p r b) (wl1 : word E m l = .ok wl) (wr1 : word E m r = .ok wr) (hR : Ready E m p l r (cost v))
    (hn : ∀ x y, ¬ (a = .num x ∧ b = .num y)) (hv : compute E.A E.K false .div a b = some v) :
    ∃ m', divOp E false p l r wl wr ⟨m, []⟩ = .ok (⟨m', []⟩, true) ∧ Wrote E m p v m' := by
  obtain ⟨n1, n2, n3, n4, n5, n6, l1, l2, l3, l4⟩ := hK.ne
  have SR := fun (x : BitVec 32) (hz : E.A.isZero x = false) (hb : b = .num x) (hv' : (∃ k ys, k ≠ E.K.qt ∧ a = .obj k ys ∧ v = .obj k (ys.map fun y => kept (E.A.div y x))) ∨
      (∃ ys, a = .vec ys ∧ v = .vec (ys.map fun y => kept (E.A.div y x)))) => by
    subst hb
    exact scale_right hK (f := E.A.div) (go := fun o => divOp E false p l r wl wr o) hl hr wl1 wr1 hR hv'
      (fun h1 h2 h3 => by funext o; simp [divOp, h2, divisor, (num_some h3).1, (num_some h3).2.1, hz])
      (fun h1 h2 h3 h4 => by funext o; simp [divOp, h2, h3, divisor, (num_some h4).1, (num_some h4).2.1, hz])
      (fun h1 h2 h3 h4 h5 => by funext o; simp [divOp, h2, h3, h4, divisor, (num_some h5).1, (num_some h5).2.1, hz])
  cases a with
  | num x =>
    cases b with
    | num y => exact absurd ⟨rfl, rfl⟩ (hn x y)
    | obj k ys => simp [compute] at hv
    | vec ys => simp [compute] at hv
  | vec xs =>
    cases b with
    | num y =>
      simp only [compute] at hv
      split_ifs at hv with hz
      cases hv
      exact SR y hz rfl (.inr ⟨xs, rfl, rfl⟩)
    | obj k ys => simp [compute] at hv
    | vec ys => simp [compute] at hv
  | obj k xs =>
    cases b with
    | num y =>
      simp only [compute] at hv
      split_ifs at hv with hk
      cases hv
      exact SR y hk.2 rfl (.inl ⟨k, xs, hk.1, rfl, rfl⟩)
    | vec ys => simp [compute] at hv
    | obj j ys =>
      simp only [compute] at hv
      have hk : k = E.K.qt ∧ j = E.K.qt := Decidable.byContradiction fun h => by rw [if_neg h] at hv; cases hv
      rw [if_pos hk] at hv
      obtain ⟨rfl, rfl⟩ := hk
      cases hv
      obtain ⟨s1, g1⟩ := got_obj hl
      obtain ⟨s2, g2⟩ := got_obj hr
      obtain ⟨e1, c1⟩ := g1 m (after_refl m p) hR.fl
      obtain ⟨e2, c2⟩ := g2 m (after_refl m p) hR.fr
      rw [wl1] at e1
      rw [wr1] at e2
      cases e1
      cases e2
      have h4 : ∀ {zs : List (BitVec 32)}, sized E.K E.K.qt zs.length → zs.length = 4 := fun h => by
        rcases h with ⟨h, _⟩ | ⟨h, _⟩ | ⟨_, h⟩
        · exact absurd h.symm n3
        · exact absurd h.symm n5
        · exact h
      obtain ⟨e3, e4⟩ := quat_quotient E.A (h4 s1) (h4 s2)
      have hR' : Ready E m p l r (4 + 1) := by
        have : cost (.obj E.K.qt ((qdiv E.A xs ys).map kept)) = 4 + 1 := by simp [cost, e4]
        rw [← this]; exact hR
      have := fixed_wrote hK (k := E.K.qt) (f := given (qdiv E.A xs ys)) (qdiv E.A xs ys) e4 (.inr (.inr ⟨rfl, rfl⟩)) hR'
        fun m' _ _ _ j y hy => given_ok _ m' hy
      simp only [divOp, Bool.false_eq_true, if_false, is_object l4, beq_eq_false_iff_ne.mpr n3.symm, beq_eq_false_iff_ne.mpr n5.symm,
        beq_eq_false_iff_ne.mpr n6.symm, beq_self_eq_true, Bool.and_self, if_true, four_ok c1 (h4 s1), four_ok c2 (h4 s2), Res.bind, e3]
      exact this

theorem overload_ok {E : Env} (hK : E.K.apart) {op : Op} {m : Mem} {p : Nat} {l r : Ctx} {a b v : Val} {wl wr : Word}
    (hl : Got E m p l a) (hr : Got E m p r b) (wl1 : word E m l = .ok wl) (wr1 : word E m r = .ok wr) (hR : Ready E m p l r (cost v))
    (hn : ∀ x y, ¬ (a = .num x ∧ b = .num y)) (hv : compute E.A E.K false op a b = some v) :
    ∃ m', overload E op false p l r wl wr ⟨m, []⟩ = .ok (⟨m', []⟩, true) ∧ Wrote E m p v m' := by
  cases op with
  | mul => exact mulOp_ok hK hl hr wl1 wr1 hR hn hv
  | div => exact divOp_ok hK hl hr wl1 wr1 hR hn hv
  | dis => exact disOp_ok hK hl hr wl1 wr1 hR.fl hR.fr hn hv
  | add =>
    refine addSub_ok hK hl hr wl1 wr1 hR ?_
    cases a <;> cases b <;> simp only [compute, reduceCtorEq] at hv
    · exact absurd ⟨rfl, rfl⟩ (hn _ _)
    · split_ifs at hv with hk
      obtain ⟨rfl, hk⟩ := hk
      cases hv
      exact .inl ⟨_, _, _, by simpa using hk, rfl, rfl, rfl⟩
    · split_ifs at hv with hk
      cases hv
      exact .inr ⟨_, _, rfl, rfl, hk, rfl⟩
  | sub =>
    refine addSub_ok hK hl hr wl1 wr1 hR ?_
    cases a <;> cases b <;> simp only [compute, reduceCtorEq] at hv
    · exact absurd ⟨rfl, rfl⟩ (hn _ _)
    · split_ifs at hv with hk
      obtain ⟨rfl, hk⟩ := hk
      cases hv
      exact .inl ⟨_, _, _, by simpa using hk, rfl, rfl, rfl⟩
    · split_ifs at hv with hk
      cases hv
      exact .inr ⟨_, _, rfl, rfl, hk, rfl⟩

theorem wrote_patch {E : Env} {m : Mem} {p : Nat} {w : Word} {v : Val} {m' : Mem} (h : Wrote E (patch m p w) p v m') : Wrote E m p v m' := by
  have e : ∀ u, patch (patch m p w) p u = patch m p u := fun u => by simp [patch]
  rcases h with ⟨x, u, h1, h2, h3⟩ | ⟨ws, h0, h1, h2, h3⟩
  · exact .inl ⟨x, u, h1, h2, by rw [h3, e]⟩
  · exact .inr ⟨ws, h0, h1, h2, by rw [h3, e]; rfl⟩

theorem after_patch (m : Mem) (p : Nat) (w : Word) : After m (patch m p w) p :=
  ⟨fun j hj => by simp only [patch]; rw [List.getElem?_set_ne (Ne.symm hj)], [], by simp [patch]⟩

theorem After.trans {m m' m'' : Mem} {p : Nat} (h : After m m' p) (h' : After m' m'' p) : After m m'' p := by
  obtain ⟨a, ws, b⟩ := h
  obtain ⟨c, us, d⟩ := h'
  exact ⟨fun j hj => (c j hj).trans (a j hj), ws ++ us, by rw [d, b, List.append_assoc]⟩

theorem got_patch {E : Env} {m : Mem} {p : Nat} {l : Ctx} {a : Val} (w : Word) (h : Got E m p l a) : Got E (patch m p w) p l a := by
  obtain ⟨L, h1, h2⟩ := h
  exact ⟨L, h1, fun m' ha hf => h2 m' ((after_patch m p w).trans ha) hf⟩

theorem got_word {E : Env} {m : Mem} {p : Nat} {l : Ctx} {a : Val} (h : Got E m p l a) (hf : Fresh m l) :
    ∃ w, word E m l = .ok w ∧ ((∃ x, a = .num x ∧ num? w = some x) ∨ (plain w = false ∧ ∀ x, a ≠ .num x)) := by
  have np : ∀ k n, plain (object k n) = false := fun k n => by simp [plain, object_float, object_desc]
  cases a with
  | num x =>
    obtain ⟨w, h1, h2⟩ := got_num h
    exact ⟨w, h2 m (after_refl m p) hf, .inl ⟨x, rfl, h1⟩⟩
  | obj k xs => exact ⟨_, ((got_obj h).2 m (after_refl m p) hf).1, .inr ⟨np _ _, fun x e => by cases e⟩⟩
  | vec xs =>
    obtain ⟨_, q, g⟩ := got_vec h
    exact ⟨_, (g m (after_refl m p) hf).1, .inr ⟨np _ _, fun x e => by cases e⟩⟩

/-- Applying an operator leaves the value. -/
theorem apply_ok {E : Env} (hK : E.K.apart) (hS : E.standard) {op : Op} {m : Mem} {p : Nat} {l r : Ctx} {a b v : Val}
    (sl : ∀ w, sub E (patch m p w) ⟨.code, p⟩ 1 = .ok l) (sr : ∀ w, sub E (patch m p w) ⟨.code, p⟩ 2 = .ok r)
    (sl' : sub E m ⟨.code, p⟩ 1 = .ok l) (sr' : sub E m ⟨.code, p⟩ 2 = .ok r)
    (hl : Got E m p l a) (hr : Got E m p r b) (hR : Ready E m p l r (cost v)) (hv : compute E.A E.K false op a b = some v) :
    ∃ m', apply E op false ⟨.code, p⟩ ⟨m, []⟩ = .ok (⟨m', []⟩, true) ∧ Wrote E m p v m' := by
  obtain ⟨wl, w1, kl⟩ := got_word hl hR.fl
  obtain ⟨wr, w2, kr⟩ := got_word hr hR.fr
  by_cases hn : ∃ x y, a = .num x ∧ b = .num y
  · obtain ⟨x, y, rfl, rfl⟩ := hn
    rcases kl with ⟨x', e, n1⟩ | ⟨_, h⟩
    · cases e
      rcases kr with ⟨y', e, n2⟩ | ⟨_, h⟩
      · cases e
        simp only [compute] at hv
        obtain ⟨z, hz, rfl⟩ := Option.map_eq_some_iff.mp hv
        have hs := hS op wl wr x y z n1 n2 hz
        have p1 : plain wl = true := by simp [plain, (num_some n1).1]
        have p2 : plain wr = true := by simp [plain, (num_some n2).1]
        simp only [apply, sl', sr', Res.bind, w1, w2, p1, p2, Bool.and_self, if_true, hs]
        exact ⟨_, rfl, wrote_num⟩
      · exact absurd rfl (h y)
    · exact absurd rfl (h x)
  · have hp : (plain wl && plain wr) = false := by
      rcases kl with ⟨x, rfl, n1⟩ | ⟨h, _⟩
      · rcases kr with ⟨y, rfl, n2⟩ | ⟨h, _⟩
        · exact absurd ⟨x, y, rfl, rfl⟩ hn
        · simp [h]
      · simp [h]
    have hR' : Ready E (patch m p nil) p l r (cost v) := ⟨hR.fl, hR.fr, hR.safe, hR.room⟩
    obtain ⟨ul, u1, _⟩ := got_word (got_patch nil hl) hR'.fl
    obtain ⟨ur, u2, _⟩ := got_word (got_patch nil hr) hR'.fr
    obtain ⟨m', h1, h2⟩ := overload_ok hK (got_patch nil hl) (got_patch nil hr) u1 u2 hR' (fun x y h => hn ⟨x, y, h⟩) hv
    refine ⟨m', ?_, wrote_patch h2⟩
    simp only [apply, sl', sr', Res.bind, w1, w2, hp, Bool.false_eq_true, if_false, atomic, sl, sr, u1, u2]
    exact h1

end Verif.Usr
