import Verif.Usr.Scale
/-!
# Expressions
-/
namespace Verif.Usr
open Verif.Atom Verif.Words

variable {E : Env} {O : Opc} {C : Code}

/-- An operator in the code. -/
def isOp (C : Code) (i : Nat) : Prop := ∃ w : Word, C[i]? = some w ∧ w.toNat / 16777216 = 0xC5

theorem slotVal_mono {f g : Nat → Option Val} (h : ∀ q v, f q = some v → g q = some v) {s : Nat} {v : Val} (e : slotVal E C f s = some v) :
    slotVal E C g s = some v := by
  obtain ⟨w, h1, e⟩ := Option.bind_eq_some_iff.mp e
  simp only [slotVal, h1, Option.bind_some]
  split_ifs at e ⊢ with h2 h3 h4
  · exact e
  · exact e
  · exact h _ _ e

theorem valAt_mono {q : Bool} : ∀ {n p : Nat} {v : Val}, valAt E O q C n p = some v → valAt E O q C (n + 1) p = some v := by
  intro n
  induction n with
  | zero => intro p v h; cases h
  | succ n ih =>
    intro p v h
    rw [valAt] at h ⊢
    obtain ⟨w, h1, h⟩ := Option.bind_eq_some_iff.mp h
    rw [h1, Option.bind_some]
    split_ifs at h ⊢ with h2 h3
    · obtain ⟨op, h4, h⟩ := Option.bind_eq_some_iff.mp h
      obtain ⟨a, h5, h⟩ := Option.bind_eq_some_iff.mp h
      obtain ⟨b, h6, h⟩ := Option.bind_eq_some_iff.mp h
      rw [h4, Option.bind_some, slotVal_mono (fun q v => ih) h5, Option.bind_some, slotVal_mono (fun q v => ih) h6, Option.bind_some]
      exact h
    · exact h

theorem valAt_le {q : Bool} {n n' p : Nat} {v : Val} (hn : n ≤ n') (h : valAt E O q C n p = some v) : valAt E O q C n' p = some v := by
  induction hn with
  | refl => exact h
  | step _ ih => exact valAt_mono ih

theorem valAt_det {q : Bool} {n n' p : Nat} {v v' : Val} (h : valAt E O q C n p = some v) (h' : valAt E O q C n' p = some v') : v = v' := by
  rcases Nat.le_total n n' with hn | hn
  · have := valAt_le hn h
    rw [h'] at this; cases this; rfl
  · have := valAt_le hn h'
    rw [h] at this; cases this; rfl

theorem costAt_mono : ∀ {n p : Nat}, costAt E O C n p ≤ costAt E O C (n + 1) p := by
  intro n
  induction n with
  | zero => intro p; exact Nat.zero_le _
  | succ n ih =>
    intro p
    have hs : ∀ s, slotCost C (costAt E O C n) s ≤ slotCost C (costAt E O C (n + 1)) s := fun s => by
      unfold slotCost
      split
      · split_ifs
        · exact ih
        · exact Nat.le_refl _
      · exact Nat.le_refl _
    have h1 := hs (p + 1)
    have h2 := hs (p + 2)
    have h3 : (match valAt E O false C (n + 1) p with | some v => cost v | none => 0) ≤
        (match valAt E O false C (n + 2) p with | some v => cost v | none => 0) := by
      cases hv : valAt E O false C (n + 1) p with
      | none => exact Nat.zero_le _
      | some v => rw [valAt_mono hv]; exact Nat.le_refl _
    rw [costAt, costAt]
    split_ifs
    · exact Nat.add_le_add (Nat.add_le_add h1 h2) h3
    · exact Nat.le_refl _

/-- Every operator is as it was, or replaced by its value. -/
def Inv (E : Env) (O : Opc) (C : Code) (m : Mem) : Prop :=
  ∀ i, m.code[i]? = C[i]? ∨ (isOp C i ∧ ∃ n v, valAt E O false C n i = some v ∧ Left E.K m i v)

/-- Replaced. -/
def Done (C : Code) (m : Mem) (i : Nat) : Prop := m.code[i]? ≠ C[i]?

/-- No pointers to the value array. -/
def noPtr (m : Mem) : Prop := ∀ (i : Nat) (w : Word), m.code[i]? = some w → w.toNat / 16777216 ≠ 0x89

/-- Room for words in the value array. -/
def Room (E : Env) (k : Nat) (m : Mem) : Prop :=
  m.vals.length + k ≤ 4096 ∧ (m.vals.length + k ≤ m.cap ∨ (m.vals.length = m.cap ∧ m.cap + k ≤ E.grow m.cap ∧ noPtr m))

theorem Room.le {k j : Nat} {m : Mem} (h : Room E k m) (hj : j ≤ k) : Room E j m := by
  obtain ⟨h1, h2⟩ := h
  refine ⟨by omega, ?_⟩
  rcases h2 with h2 | ⟨h2, h3, h4⟩
  · exact .inl (by omega)
  · exact .inr ⟨h2, by omega, h4⟩

theorem Inv.same {m : Mem} (h : Inv E O C m) {i : Nat} {w : Word} (hw : C[i]? = some w) (hd : w.toNat / 16777216 ≠ 0xC5) : m.code[i]? = some w := by
  rcases h i with e | ⟨⟨u, e1, e2⟩, _⟩
  · rw [e, hw]
  · rw [hw] at e1; cases e1; exact absurd e2 hd

theorem Inv.agree {m : Mem} (h : Inv E O C m) : Agree C m.code := fun _ _ hw hd => h.same hw hd

theorem thing_of_struct {K : Classes} {L : Code} {p : Nat} {v : Val} (h1 : structAt K L p = some v) : thingAt K L p = some v := by
  have hw : ∃ w : Word, L[p]? = some w ∧ w.toNat / 16777216 = 0xC3 := by
    rcases struct_shape h1 with ⟨k, n, xs, _, h2, _⟩ | ⟨q, n, xs, _, _, h2, _⟩
    · exact ⟨_, h2, object_desc' _ _⟩
    · exact ⟨_, h2, object_desc' _ _⟩
  obtain ⟨w, h3, h4⟩ := hw
  have h5 : num? w = none := by unfold num?; rw [if_neg (by omega)]
  simp [thingAt, h3, h5, h1]

/-- The word a value begins with. -/
theorem thing_head {K : Classes} {L : Code} {p : Nat} {v : Val} (h : thingAt K L p = some v) :
    ∃ w : Word, L[p]? = some w ∧ w.toNat / 16777216 ≠ 0x84 ∧ w.toNat / 16777216 ≠ 0x86 ∧ w.toNat / 16777216 ≠ 0x89 := by
  rcases thing_shape h with ⟨w, x, h1, h2, _⟩ | h1
  · have := (num_some h2).2.2
    exact ⟨w, h1, by omega, by omega, by omega⟩
  · rcases struct_shape h1 with ⟨k, n, xs, _, h2, _⟩ | ⟨q, n, xs, _, _, h2, _⟩
    · exact ⟨_, h2, by rw [object_desc']; omega, by rw [object_desc']; omega, by rw [object_desc']; omega⟩
    · exact ⟨_, h2, by rw [object_desc']; omega, by rw [object_desc']; omega, by rw [object_desc']; omega⟩

theorem deref_thing {m : Mem} {b : Base} {i n : Nat} {L : Code} {v : Val} (hb : codeOf E m b = some L) (h : thingAt E.K L i = some v) :
    deref E m (n + 1) ⟨b, i⟩ = .ok ⟨b, i⟩ := by
  obtain ⟨w, h1, h2, h3, h4⟩ := thing_head h
  exact deref_stop (word_of hb h1) h2 h3 h4

/-! ## What is evaluated to itself -/

theorem eval_num {m : Mem} {i M : Nat} {w : Word} {x : BitVec 32} (h : m.code[i]? = some w) (hx : num? w = some x) :
    eval E O (M + 1) ⟨.code, i⟩ m = .ok m := by
  have hd := (num_some hx).2.2
  have hw : word E m ⟨.code, i⟩ = .ok w := word_of rfl h
  have hc : composite (getDescriptor w) = false := by
    simp only [composite, List.any_eq_false, beq_iff_eq]
    intro d hd' e
    rw [← getDescriptor_toNat, ← e] at hd
    clear e
    revert hd' hd
    revert d
    decide
  have h5 : getDescriptor w ≠ 0xC5 := desc_ne (by rw [show (0xC5 : BitVec 8).toNat = 197 from rfl]; omega)
  simp only [eval, ne_eq, not_true_eq_false, if_false, hw, Res.bind, h5, hc, Bool.false_eq_true]

theorem members_nums {m : Mem} {f : Ctx → Mem → Res Mem} (hf : ∀ i w x, m.code[i]? = some w → num? w = some x → f ⟨.code, i⟩ m = .ok m) (p : Nat) :
    ∀ (n k : Nat) (xs : List (BitVec 32)), nums m.code (p + k) n = some xs → members f E ⟨.code, p⟩ n k m = .ok m
  | 0, _, _, _ => rfl
  | n + 1, k, xs, h => by
    simp only [nums, Option.bind_eq_some_iff, Option.map_eq_some_iff] at h
    obtain ⟨w, h1, x, h2, ys, h3, _⟩ := h
    have hd := (num_some h2).2.2
    have hs : sub E m ⟨.code, p⟩ k = .ok ⟨.code, p + k⟩ := deref_stop (word_of rfl h1) (by omega) (by omega) (by omega)
    simp only [members, hs, Res.bind, hf _ w x h1 h2]
    exact members_nums hf p n (k + 1) ys h3

theorem eval_struct {m : Mem} {p M : Nat} {v : Val} (h : structAt E.K m.code p = some v) : eval E O (M + 3) ⟨.code, p⟩ m = .ok m := by
  have hf : ∀ N i w x, m.code[i]? = some w → num? w = some x → eval E O (N + 1) ⟨.code, i⟩ m = .ok m := fun N i w x => eval_num
  have hC3 : composite 0xC3 = true := by decide
  have hC1 : composite 0xC1 = true := by decide
  rcases struct_shape h with ⟨k, n, xs, hs, h1, h2, _⟩ | ⟨q, n, xs, a1, a2, a3, a4, a5, a6, _⟩
  · have hw : word E m ⟨.code, p⟩ = .ok (object k (BitVec.ofNat 8 n)) := word_of rfl h1
    have hn : (BitVec.ofNat 8 n).toNat = n := by
      rcases hs with ⟨_, rfl⟩ | ⟨_, rfl⟩ | ⟨_, rfl⟩ <;> rfl
    simp only [eval, ne_eq, not_true_eq_false, if_false, hw, Res.bind, object_desc, hC3, if_true, object_count, hn]
    rw [if_neg (by decide)]
    exact members_nums (hf (M + 1)) p n 1 xs h2
  · have hw : word E m ⟨.code, p⟩ = .ok (object E.K.vn 1) := word_of rfl a3
    have hq : word E m ⟨.code, q⟩ = .ok (set (BitVec.ofNat 8 n)) := word_of rfl a5
    have hp : word E m ⟨.code, p + 1⟩ = .ok (iPointer (BitVec.ofNat 16 q)) := word_of rfl a4
    have hs : sub E m ⟨.code, p⟩ 1 = .ok ⟨.code, q⟩ := by
      show deref E m deep ⟨.code, p + 1⟩ = _
      rw [deep, deref_i a1 hp]
      exact deref_stop hq (by rw [set_desc]; omega) (by rw [set_desc]; omega) (by rw [set_desc]; omega)
    have hset : getDescriptor (set (BitVec.ofNat 8 n)) = 0xC1 := desc_is (by rw [set_desc]; rfl)
    have he : eval E O (M + 2) ⟨.code, q⟩ m = .ok m := by
      simp only [eval, ne_eq, not_true_eq_false, if_false, hq, Res.bind, hset, hC1, if_true, set_len a2]
      rw [if_neg (by decide)]
      exact members_nums (hf M) q n 1 xs a6
    rw [eval]
    simp only [ne_eq, not_true_eq_false, if_false, hw, Res.bind, object_desc, hC3, if_true, object_count]
    rw [if_neg (by decide)]
    show members (eval E O (M + 2)) E ⟨.code, p⟩ 1 1 m = _
    simp only [members, hs, Res.bind, he]

/-! ## Operands -/

/-- The cases of an operand. -/
theorem slot_cases {f : Nat → Option Val} {s : Nat} {a : Val} (h : slotVal E C f s = some a) :
    ∃ w : Word, C[s]? = some w ∧ w.toNat / 16777216 ≠ 0xC5 ∧
    ((∃ x, num? w = some x ∧ a = .num x) ∨
     (∃ q L, q < 4096 ∧ w = vlPointer (BitVec.ofNat 16 q) ∧ E.bind q = some L ∧ thingAt E.K L 0 = some a) ∨
     (∃ q, q < 4096 ∧ w = iPointer (BitVec.ofNat 16 q) ∧ f q = some a)) := by
  obtain ⟨w, h1, h⟩ := Option.bind_eq_some_iff.mp h
  refine ⟨w, h1, ?_⟩
  split_ifs at h with h2 h3 h4
  · obtain ⟨x, h5, rfl⟩ := Option.map_eq_some_iff.mp h
    exact ⟨by omega, .inl ⟨x, h5, rfl⟩⟩
  · obtain ⟨L, h5, h6⟩ := Option.bind_eq_some_iff.mp h
    exact ⟨by rw [h3, v_desc]; omega, .inr (.inl ⟨_, L, by omega, h3, h5, h6⟩)⟩
  · exact ⟨by rw [h4, i_desc]; omega, .inr (.inr ⟨_, by omega, h4, h⟩)⟩

theorem valAt_cases {q : Bool} {n p : Nat} {v : Val} (h : valAt E O q C n p = some v) : isOp C p ∨ structAt E.K C p = some v := by
  cases n with
  | zero => cases h
  | succ n =>
    obtain ⟨w, h1, h⟩ := Option.bind_eq_some_iff.mp h
    by_cases h2 : getDescriptor w = 0xC5
    · refine .inl ⟨w, h1, ?_⟩
      rw [← getDescriptor_toNat, h2]; rfl
    · rw [if_neg h2] at h
      exact .inr h

theorem struct_not_op {K : Classes} {p : Nat} {v : Val} (h : structAt K C p = some v) : ¬ isOp C p := fun ⟨w, h1, h2⟩ => by
  rcases struct_shape h with ⟨k, n, xs, _, e, _⟩ | ⟨q, n, xs, _, _, e, _⟩
  · rw [h1] at e; cases e; rw [object_desc'] at h2; omega
  · rw [h1] at e; cases e; rw [object_desc'] at h2; omega

/-- An operand after evaluation. -/
theorem operand {m : Mem} {p k n : Nat} {a : Val} (hi : Inv E O C m) (hp : isOp C p)
    (hs : slotVal E C (valAt E O false C n) (p + k) = some a) (hne : valAt E O false C n p = none)
    (hd : ∀ q, C[p + k]? = some (iPointer (BitVec.ofNat 16 q)) → q < 4096 → isOp C q → Done C m q) :
    ∃ l, (∀ m', After m m' p → m'.gen = m.gen → sub E m' ⟨.code, p⟩ k = .ok l) ∧ Got E m p l a ∧ Fresh m l ∧
      ((∃ g, l.base = .vals g) → ¬ noPtr m) := by
  obtain ⟨w, h1, h2, h3⟩ := slot_cases hs
  have hcode : ∀ m', After m m' p → Agree C m'.code := fun m' ha j u hu hu' => by
    have hj : j ≠ p := fun e => by
      subst e
      obtain ⟨u', e1, e2⟩ := hp
      rw [hu] at e1; cases e1; exact hu' e2
    rw [ha.1 j hj]; exact hi.same hu hu'
  have hw : ∀ m', After m m' p → word E m' ⟨.code, p + k⟩ = .ok w := fun m' ha => word_of rfl (hcode m' ha _ _ h1 h2)
  rcases h3 with ⟨x, e1, rfl⟩ | ⟨q, L, hq, rfl, hb, hL⟩ | ⟨q, hq, rfl, hv⟩
  · have ht : thingAt E.K C (p + k) = some (.num x) := by simp [thingAt, h1, e1]
    refine ⟨⟨.code, p + k⟩, fun m' ha _ => deref_thing rfl (thing_agree (hcode m' ha) ht), ⟨C, ht, fun m' ha _ => ⟨_, rfl, hcode m' ha⟩⟩,
      fun g hg => (by cases hg), fun ⟨g, hg⟩ => (by cases hg)⟩
  · refine ⟨⟨.bound q, 0⟩, fun m' ha _ => ?_, ⟨L, hL, fun m' _ _ => ⟨L, hb, fun _ _ h _ => h⟩⟩, fun g hg => (by cases hg), fun ⟨g, hg⟩ => (by cases hg)⟩
    show deref E m' deep ⟨.code, p + k⟩ = _
    rw [deep, deref_v hq hb (hw m' ha)]
    exact deref_thing hb hL
  · rcases valAt_cases hv with ho | hst
    · have hqp : q ≠ p := fun e => by subst e; rw [hne] at hv; cases hv
      rcases hi q with e | ⟨_, n', v', e1, e2⟩
      · exact absurd e (hd q h1 hq ho)
      · have := valAt_det hv e1
        subst this
        have st : ∀ j, m.code[q]? = some (valuePointer (BitVec.ofNat 16 j)) → j < 4096 → structAt E.K m.vals j = some a →
            ∃ l, (∀ m', After m m' p → m'.gen = m.gen → sub E m' ⟨.code, p⟩ k = .ok l) ∧ Got E m p l a ∧ Fresh m l ∧
              ((∃ g, l.base = .vals g) → ¬ noPtr m) := fun j hm hj hst => by
          have hag : ∀ m', After m m' p → Agree m.vals m'.vals := fun m' ha => by
            obtain ⟨_, ws, e⟩ := ha
            rw [e]; exact agree_append _ _
          refine ⟨⟨.vals m.gen, j⟩, fun m' ha hg => ?_, ⟨m.vals, thing_of_struct hst, fun m' ha hf => ⟨m'.vals, ?_, hag m' ha⟩⟩,
            fun g hg => (by cases hg; rfl), fun _ hn => hn q _ hm (val_desc _)⟩
          · have hwq : word E m' ⟨.code, q⟩ = .ok (valuePointer (BitVec.ofNat 16 j)) := word_of rfl (by rw [ha.1 q hqp]; exact hm)
            show deref E m' deep ⟨.code, p + k⟩ = _
            rw [deep, deref_i hq (hw m' ha), deref_val hj hwq, hg]
            exact deref_thing (L := m'.vals) (by simp [codeOf, hg]) (thing_agree (hag m' ha) (thing_of_struct hst))
          · simp [codeOf, hf m.gen rfl]
        cases a with
        | obj k' xs => obtain ⟨j, hj, hm, hst⟩ := e2; exact st j hm hj hst
        | vec xs => obtain ⟨j, hj, hm, hst⟩ := e2; exact st j hm hj hst
        | num x =>
          obtain ⟨u, hu, hx⟩ := e2
          have hu' : ∀ m', After m m' p → m'.code[q]? = some u := fun m' ha => by rw [ha.1 q hqp]; exact hu
          have hL : thingAt E.K (List.replicate q (operator 0 0) ++ [u]) q = some (.num x) := by simp [thingAt, hx]
          have hag : ∀ m', After m m' p → Agree (List.replicate q (operator 0 0) ++ [u]) m'.code := fun m' ha j y hy hy' => by
            rcases Nat.lt_trichotomy j q with hj | hj | hj
            · rw [List.getElem?_append_left (by simpa using hj), List.getElem?_replicate, if_pos hj] at hy
              cases hy
              exact absurd (by decide) hy'
            · subst hj
              simp only [List.length_replicate, Nat.le_refl, List.getElem?_append_right, Nat.sub_self, List.getElem?_cons_zero] at hy
              cases hy
              exact hu' m' ha
            · rw [List.getElem?_eq_none (by simp; omega)] at hy
              cases hy
          refine ⟨⟨.code, q⟩, fun m' ha _ => ?_, ⟨_, hL, fun m' ha _ => ⟨_, rfl, hag m' ha⟩⟩, fun g hg => (by cases hg), fun ⟨g, hg⟩ => (by cases hg)⟩
          show deref E m' deep ⟨.code, p + k⟩ = _
          rw [deep, deref_i hq (hw m' ha)]
          exact deref_thing rfl (thing_agree (hag m' ha) hL)
    · have ht := thing_of_struct hst
      refine ⟨⟨.code, q⟩, fun m' ha _ => ?_, ⟨C, ht, fun m' ha _ => ⟨_, rfl, hcode m' ha⟩⟩, fun g hg => (by cases hg), fun ⟨g, hg⟩ => (by cases hg)⟩
      show deref E m' deep ⟨.code, p + k⟩ = _
      rw [deep, deref_i hq (hw m' ha)]
      exact deref_thing rfl (thing_agree (hcode m' ha) ht)

/-! ## Evaluation -/

theorem wrote_inv {m m' : Mem} {p n : Nat} {v : Val} (hi : Inv E O C m) (hp : isOp C p) (hl : p < m.code.length)
    (hv : valAt E O false C n p = some v) (hr : m.vals.length < 4096 ∨ cost v = 0) (hw : Wrote E m p v m') :
    Inv E O C m' ∧ Done C m' p ∧ ∀ i, Done C m i → Done C m' i := by
  have base : ∀ (w : Word) (ws : Code), m'.code = m.code.set p w → m'.vals = m.vals ++ ws → w.toNat / 16777216 ≠ 0xC5 → Left E.K m' p v →
      Inv E O C m' ∧ Done C m' p ∧ ∀ i, Done C m i → Done C m' i := fun w ws e1 e2 e3 e4 => by
    have hpp : m'.code[p]? = some w := by rw [e1]; simp [hl]
    have hdone : Done C m' p := fun e => by
      obtain ⟨u, h1, h2⟩ := hp
      rw [hpp, h1] at e; cases e; exact e3 h2
    refine ⟨fun i => ?_, hdone, fun i hd => ?_⟩
    · by_cases hip : i = p
      · subst hip; exact .inr ⟨hp, n, v, hv, e4⟩
      · have ei : m'.code[i]? = m.code[i]? := by rw [e1, List.getElem?_set_ne (Ne.symm hip)]
        rcases hi i with h | ⟨h1, n', v', h2, h3⟩
        · exact .inl (ei.trans h)
        · refine .inr ⟨h1, n', v', h2, ?_⟩
          cases v' with
          | num x => obtain ⟨u, a, b⟩ := h3; exact ⟨u, ei.trans a, b⟩
          | obj k xs => obtain ⟨j, a, b, c⟩ := h3; exact ⟨j, a, ei.trans b, struct_agree (by rw [e2]; exact agree_append _ _) c⟩
          | vec xs => obtain ⟨j, a, b, c⟩ := h3; exact ⟨j, a, ei.trans b, struct_agree (by rw [e2]; exact agree_append _ _) c⟩
    · by_cases hip : i = p
      · subst hip; exact hdone
      · unfold Done
        rw [e1, List.getElem?_set_ne (Ne.symm hip)]; exact hd
  rcases hw with ⟨x, w, rfl, h1, rfl⟩ | ⟨ws, h0, h1, h2, rfl⟩
  · refine base w [] rfl (by simp [patch]) (by have := (num_some h1).2.2; omega) ⟨w, ?_, h1⟩
    simp [patch, hl]
  · refine base (valuePointer (BitVec.ofNat 16 m.vals.length)) ws (by rw [pushAll_code]; rfl) (by rw [pushAll_vals]; rfl) (by rw [val_desc]; omega) ?_
    have e1 : (pushAll E (patch m p (valuePointer (BitVec.ofNat 16 m.vals.length))) ws).code[p]? =
        some (valuePointer (BitVec.ofNat 16 m.vals.length)) := by rw [pushAll_code]; simp [patch, hl]
    have e2 : structAt E.K (pushAll E (patch m p (valuePointer (BitVec.ofNat 16 m.vals.length))) ws).vals m.vals.length = some v := by
      rw [pushAll_vals]; exact h2
    have e3 : m.vals.length < 4096 := by omega
    cases v with
    | num x => simp only [cost] at h1; omega
    | obj k xs => exact ⟨_, e3, e1, e2⟩
    | vec xs => exact ⟨_, e3, e1, e2⟩

theorem wrote_room {m m' : Mem} {p k : Nat} {v : Val} (hr : Room E (cost v + k) m) (hw : Wrote E m p v m') : Room E k m' := by
  obtain ⟨h1, h2⟩ := hr
  rcases hw with ⟨x, w, rfl, e1, rfl⟩ | ⟨ws, h0, e1, e2, rfl⟩
  · simp only [cost, Nat.zero_add] at h1 h2
    refine ⟨h1, ?_⟩
    rcases h2 with h2 | ⟨h2, h3, h4⟩
    · exact .inl h2
    · refine .inr ⟨h2, h3, fun i u hu => ?_⟩
      simp only [patch, List.getElem?_set] at hu
      split_ifs at hu
      · cases hu; have := (num_some e1).2.2; omega
      · exact h4 i u hu
  · have ev := pushAll_vals E ws (patch m p (valuePointer (BitVec.ofNat 16 m.vals.length)))
    have el : (pushAll E (patch m p (valuePointer (BitVec.ofNat 16 m.vals.length))) ws).vals.length = m.vals.length + cost v := by
      rw [ev]; simp [patch, e1]
    refine ⟨by rw [el]; omega, .inl ?_⟩
    rw [el]
    rcases h2 with h2 | ⟨h2, h3, h4⟩
    · rw [(pushAll_quiet E ws _ (by simp only [patch]; omega)).2]
      simp only [patch]; omega
    · cases ws with
      | nil => cases h0
      | cons w ws =>
        have ep : push E (patch m p (valuePointer (BitVec.ofNat 16 m.vals.length))) w =
            ⟨m.code.set p (valuePointer (BitVec.ofNat 16 m.vals.length)), m.vals ++ [w], E.grow m.cap, m.gen + 1⟩ := by
          unfold push
          rw [if_neg (by simp only [patch]; omega)]
          rfl
        show _ ≤ (pushAll E (push E _ w) ws).cap
        simp only [List.length_cons] at e1
        rw [ep, (pushAll_quiet E ws _ (by simp; omega)).2]
        simp only
        omega

theorem wrote_vals {m m' : Mem} {p : Nat} {v : Val} (hw : Wrote E m p v m') : ∃ W, m'.vals = m.vals ++ W := by
  rcases hw with ⟨x, w, _, _, rfl⟩ | ⟨ws, _, _, _, rfl⟩
  · exact ⟨[], by simp [patch]⟩
  · exact ⟨ws, by rw [pushAll_vals]; rfl⟩

/-- Evaluation of operands and operators. -/
theorem eval_op (hK : E.K.apart) (hS : E.standard) (n : Nat) : ∀ {p : Nat} {v : Val} {k : Nat} {m : Mem} {M : Nat},
    valAt E O false C n p = some v → isOp C p → Inv E O C m → ¬ Done C m p → Room E (costAt E O C n p + k) m → n + 3 ≤ M →
    ∃ m', eval E O M ⟨.code, p⟩ m = .ok m' ∧ Inv E O C m' ∧ Done C m' p ∧ (∀ i, Done C m i → Done C m' i) ∧ Room E k m' ∧ (∃ W, m'.vals = m.vals ++ W) := by
  induction n with
  | zero => intro p v k m M h; cases h
  | succ n ih =>
    intro p v k m M hv hp hi hnd hr hM
    cases hn : valAt E O false C n p with
    | some v' =>
      have := costAt_mono (E := E) (O := O) (C := C) (n := n) (p := p)
      exact ih hn hp hi hnd (hr.le (by omega)) (by omega)
    | none =>
      obtain ⟨M, rfl⟩ : ∃ M', M = M' + 1 := ⟨M - 1, by omega⟩
      -- one operand
      have one : ∀ {s j : Nat} {a : Val} {m : Mem}, 0 < s → slotVal E C (valAt E O false C n) (p + s) = some a → Inv E O C m →
          Room E (slotCost C (costAt E O C n) (p + s) + j) m →
          ∃ d m', sub E m ⟨.code, p⟩ s = .ok d ∧ eval E O M d m = .ok m' ∧ Inv E O C m' ∧ (∀ i, Done C m i → Done C m' i) ∧ Room E j m' ∧ (∃ W, m'.vals = m.vals ++ W) ∧
            (∀ q, C[p + s]? = some (iPointer (BitVec.ofNat 16 q)) → q < 4096 → isOp C q → Done C m' q) := by
        intro s j a m hs hsl hi hr
        obtain ⟨M, rfl⟩ : ∃ M', M = M' + 3 := ⟨M - 3, by omega⟩
        obtain ⟨w, h1, h2, h3⟩ := slot_cases hsl
        have hmw : m.code[p + s]? = some w := hi.same h1 h2
        have hw : word E m ⟨.code, p + s⟩ = .ok w := word_of rfl hmw
        have stay : Room E j m := hr.le (by omega)
        rcases h3 with ⟨x, e1, rfl⟩ | ⟨q, L, hq, rfl, hb, hL⟩ | ⟨q, hq, rfl, hvq⟩
        · have hd := (num_some e1).2.2
          refine ⟨⟨.code, p + s⟩, m, deref_stop hw (by omega) (by omega) (by omega), eval_num hmw e1, hi, fun _ h => h, stay, ⟨[], by simp⟩, fun q e _ _ => ?_⟩
          rw [h1] at e; cases e; rw [i_desc] at hd; omega
        · refine ⟨⟨.bound q, 0⟩, m, ?_, ?_, hi, fun _ h => h, stay, ⟨[], by simp⟩, fun q' e _ _ => ?_⟩
          · show deref E m deep ⟨.code, p + s⟩ = _
            rw [deep, deref_v hq hb hw]
            exact deref_thing hb hL
          · rw [eval, if_pos (by simp)]
          · rw [h1] at e
            injection e with e
            have e1 := v_desc (BitVec.ofNat 16 q)
            rw [e, i_desc] at e1; omega
        · have hqq : ∀ q', C[p + s]? = some (iPointer (BitVec.ofNat 16 q')) → q' < 4096 → q' = q := fun q' e h' => by
            rw [h1] at e
            injection e with e
            rw [← i_index hq, ← i_index h', e]
          rcases valAt_cases hvq with ho | hst
          · have hq2 : q ≠ p := fun e => by subst e; rw [hn] at hvq; cases hvq
            have cost_q : slotCost C (costAt E O C n) (p + s) = costAt E O C n q := by
              have e1 : (iPointer (BitVec.ofNat 16 q)).toNat % 4096 = q := by
                rw [← asIndex_toNat]; exact i_index hq
              simp only [slotCost, h1, e1, if_true]
            by_cases hdq : Done C m q
            · -- evaluated before
              have hdone : ∀ q', C[p + s]? = some (iPointer (BitVec.ofNat 16 q')) → q' < 4096 → isOp C q' → Done C m q' := fun q' e h' _ => by
                rw [hqq q' e h']; exact hdq
              obtain ⟨l, s1, s2, s3, _⟩ := operand hi hp hsl hn hdone
              refine ⟨l, m, s1 m (after_refl m p) rfl, ?_, hi, fun _ h => h, stay, ⟨[], by simp⟩, hdone⟩
              by_cases hb : l.base = .code
              · obtain ⟨lb, li⟩ := l
                simp only at hb
                subst hb
                obtain ⟨L, t1, t2⟩ := s2
                obtain ⟨L', c1, c2⟩ := t2 m (after_refl m p) s3
                cases c1
                rcases thing_shape (thing_agree c2 t1) with ⟨u, x, u1, u2, _⟩ | hst
                · exact eval_num u1 u2
                · exact eval_struct hst
              · rw [eval, if_pos hb]
            · rw [cost_q] at hr
              obtain ⟨m', r1, r2, r3, r4, r5, r6⟩ := ih (M := M + 3) hvq ho hi hdq hr (by omega)
              refine ⟨⟨.code, q⟩, m', ?_, r1, r2, r4, r5, r6, fun q' e h' _ => by rw [hqq q' e h']; exact r3⟩
              obtain ⟨u, u1, u2⟩ := ho
              have hmq : m.code[q]? = some u := by
                have : m.code[q]? = C[q]? := Decidable.not_not.mp hdq
                rw [this, u1]
              show deref E m deep ⟨.code, p + s⟩ = _
              rw [deep, deref_i hq hw]
              exact deref_stop (word_of rfl hmq) (by omega) (by omega) (by omega)
          · have hst' := struct_agree hi.agree hst
            refine ⟨⟨.code, q⟩, m, ?_, eval_struct hst', hi, fun _ h => h, stay, ⟨[], by simp⟩, fun q' e h' ho => ?_⟩
            · show deref E m deep ⟨.code, p + s⟩ = _
              rw [deep, deref_i hq hw]
              exact deref_thing rfl (thing_of_struct hst')
            · rw [hqq q' e h'] at ho
              exact absurd ho (struct_not_op hst)
      -- the operator
      have hv0 := hv
      obtain ⟨w, h1, h2⟩ := hp
      rw [valAt, h1, Option.bind_some, if_pos (desc_is (by rw [h2]; rfl))] at hv
      split_ifs at hv with hcount
      obtain ⟨op, hop, hv⟩ := Option.bind_eq_some_iff.mp hv
      obtain ⟨a, ha, hv⟩ := Option.bind_eq_some_iff.mp hv
      obtain ⟨b, hb, hv⟩ := Option.bind_eq_some_iff.mp hv
      have hcost : costAt E O C (n + 1) p = slotCost C (costAt E O C n) (p + 1) + slotCost C (costAt E O C n) (p + 2) + cost v := by
        rw [costAt, if_pos (by rw [h1, Option.map_some, desc_is (d := 0xC5) (by rw [h2]; rfl)]), hv0]
      rw [hcost] at hr
      have hp : isOp C p := ⟨w, h1, h2⟩
      obtain ⟨d1, m1, a1, a2, a3, a4, a5, ⟨W1, a7⟩, a6⟩ := one (s := 1) (j := slotCost C (costAt E O C n) (p + 2) + (cost v + k)) (by omega) ha hi
        (hr.le (by omega))
      obtain ⟨d2, m2, b1, b2, b3, b4, b5, ⟨W2, b7⟩, b6⟩ := one (s := 2) (j := cost v + k) (by omega) hb a3 (a5.le (by omega))
      obtain ⟨l, l1, l2, l3, l4⟩ := operand b3 hp ha hn fun q e hq ho => b4 q (a6 q e hq ho)
      obtain ⟨r, r1, r2, r3, r4⟩ := operand b3 hp hb hn b6
      have hR : Ready E m2 p l r (cost v) := by
        refine ⟨l3, r3, ?_, by have := b5.1; omega⟩
        rcases b5.2 with h | ⟨_, _, h⟩
        · exact .inr (by omega)
        · exact .inl ⟨fun g hg => l4 ⟨g, hg⟩ h, fun g hg => r4 ⟨g, hg⟩ h⟩
      obtain ⟨m3, c1, c2⟩ := apply_ok hK hS (op := op) (fun u => l1 _ (after_patch m2 p u) rfl) (fun u => r1 _ (after_patch m2 p u) rfl)
        (l1 m2 (after_refl m2 p) rfl) (r1 m2 (after_refl m2 p) rfl) l2 r2 hR hv
      have hlen : p < m2.code.length := by
        obtain ⟨u, e1, e2, _⟩ := slot_cases ha
        have := (List.getElem?_eq_some_iff.mp (b3.same e1 e2)).1
        omega
      have hlt : m2.vals.length < 4096 ∨ cost v = 0 := by have := b5.1; omega
      obtain ⟨f1, f2, f3⟩ := wrote_inv b3 hp hlen hv0 hlt c2
      obtain ⟨W3, c3⟩ := wrote_vals c2
      refine ⟨m3, ?_, f1, f2, fun i hd => f3 i (b4 i (a4 i hd)), wrote_room b5 c2, W1 ++ (W2 ++ W3), by rw [c3, b7, a7]; simp⟩
      have hmp : m.code[p]? = some w := by
        have : m.code[p]? = C[p]? := Decidable.not_not.mp hnd
        rw [this, h1]
      have hwp : word E m ⟨.code, p⟩ = .ok w := word_of rfl hmp
      rw [eval]
      simp only [ne_eq, not_true_eq_false, if_false, hwp, Res.bind]
      rw [if_pos (desc_is (by rw [h2]; rfl)), hcount]
      show Res.bind (members (eval E O M) E ⟨.code, p⟩ 2 1 m) _ = _
      simp only [members, a1, a2, b1, b2, Res.bind, hop, c1, if_true]

end Verif.Usr
