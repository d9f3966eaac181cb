import Verif.Law.Calc
/-!
# The law found
-/
namespace Verif.Law
open Verif.Atom hiding Val kept
open Verif.Words Verif.Usr

theorem float_kept (x : BitVec 32) : float (Usr.kept x) = float x := (float_of_num (num_float x)).symm

theorem floats_kept (xs : List (BitVec 32)) : (xs.map Usr.kept).map float = xs.map float := by
  rw [List.map_map]; exact List.map_congr_left fun x _ => float_kept x

theorem kept_twice (x : BitVec 32) : Usr.kept (Usr.kept x) = Usr.kept x := kept_num (num_float x)

theorem stored_kept (d : Val) : keptVal (stored d) := by
  cases d with
  | num x => exact kept_twice x
  | obj k xs => simp only [stored, keptVal, List.map_map]; exact List.map_congr_left fun x _ => kept_twice x
  | vec xs => simp only [stored, keptVal, List.map_map]; exact List.map_congr_left fun x _ => kept_twice x

theorem stored_fit {K : Classes} {d : Val} (h : fit K d) : fit K (stored d) := by
  cases d <;> simpa [stored, fit] using h

theorem layout_stored (K : Classes) (d : Val) : layoutAt K 0 (stored d) = layout K d := by
  cases d with
  | num x => simp only [stored, layoutAt, layout, float_kept]
  | obj k xs => simp only [stored, layoutAt, layout, floats_kept, List.length_map]
  | vec xs => simp only [stored, layoutAt, layout, floats_kept, List.length_map, Nat.zero_add]

theorem layout_ne (K : Classes) (d : Val) : ∃ w ws, layout K d = w :: ws := by cases d <;> exact ⟨_, _, rfl⟩

/-- What is searched for is the value, laid out. -/
theorem searched_eq {K : Classes} (hK : K.apart) {r : Code} {d : Val} {N : Nat} (hN : 2 ≤ N) (h : Gives K r (some d)) :
    ∃ d', fit K d' ∧ stored d' = d ∧ searched N r = some (layout K d') := by
  obtain ⟨d', R, hf, hn, hd, hr⟩ := h
  refine ⟨d', hf, hd, ?_⟩
  obtain ⟨w, ws, hw⟩ := layout_ne K d'
  have hs := struct_layout (L := []) (R := R) hK (stored_fit hf) (stored_kept d') (fun x e => by cases d' <;> simp [stored] at e; exact hn _ rfl) (by simp)
  simp only [List.nil_append, List.length_nil, layout_stored] at hs
  have hc := copy_struct (dst := []) (ext := 0) (N := N) hs (by simp) hN
  rw [layout_stored] at hc
  simp only [searched, hr, hw, List.cons_append]
  rw [← List.cons_append, ← hw, hc]
  simp [grow]

theorem searched_none {K : Classes} {r : Code} {N : Nat} (h : Gives K r none) : searched N r = some [] := by
  simp only [Gives] at h
  simp only [searched, h]

/-! ## The result of the operator -/

theorem op_desc (k : BitVec 16) (n : BitVec 8) : (operator k n).toNat / 16777216 = 0xC5 := by
  have := struct_toNat .OPERATOR k n
  rw [operator, this, show Ty.OPERATOR.num = 0xC5 from by decide]; omega

theorem compound_gives {S : Setup} (hK : S.E.K.apart) {N : Nat} (hN : 3 ≤ N) {op : Op} (ho : op = .sub ∨ op = .div) {c0 c1 : Code} {q0 q1 : Nat} {v0 v1 : Val}
    (h0 : structAt S.E.K c0 q0 = some v0) (h1 : structAt S.E.K c1 q1 = some v1) (l0 : q0 < 4096) (l1 : q1 < 4096) (ha : alike v1 v0) :
    ∃ r, compound S.E S.O N op c0 c1 (iPointer (BitVec.ofNat 16 q0)) (iPointer (BitVec.ofNat 16 q1)) = some r ∧
      Gives S.E.K r (compute S.E.A S.E.K true op v1 v0) := by
  obtain ⟨f1, k1, g1⟩ := struct_fit h1
  obtain ⟨f0, k0, g0⟩ := struct_fit h0
  have b1 := layout_length (e := 3) f1
  have b0 := layout_length (e := 3 + (layoutAt S.E.K 3 v1).length) f0
  obtain ⟨e, he⟩ : ∃ e, 3 + (layoutAt S.E.K 3 v1).length = e := ⟨_, rfl⟩
  obtain ⟨C, hC⟩ : ∃ C, exprOf S.E.K (S.O.of op) v1 v0 = C := ⟨_, rfl⟩
  have hC' : C = [operator (S.O.of op) 2, iPointer (BitVec.ofNat 16 3), iPointer (BitVec.ofNat 16 e)] ++ (layoutAt S.E.K 3 v1 ++ layoutAt S.E.K e v0) := by
    rw [← hC, exprOf, he]
  have s1 : structAt S.E.K C 3 = some v1 := by
    have := struct_layout (L := [operator (S.O.of op) 2, iPointer (BitVec.ofNat 16 3), iPointer (BitVec.ofNat 16 e)]) (R := layoutAt S.E.K e v0) hK f1 k1 g1 (by simp)
    rw [hC']; exact this
  have s0 : structAt S.E.K C e = some v0 := by
    have := struct_layout (L := [operator (S.O.of op) 2, iPointer (BitVec.ofNat 16 3), iPointer (BitVec.ofNat 16 e)] ++ layoutAt S.E.K 3 v1) (R := []) hK f0 k0 g0
      (by simp; omega)
    rw [show ([operator (S.O.of op) 2, iPointer (BitVec.ofNat 16 3), iPointer (BitVec.ofNat 16 e)] ++ layoutAt S.E.K 3 v1).length = e by simp; omega] at this
    rw [hC', ← List.append_assoc]
    simpa using this
  have w0 : C[0]? = some (operator (S.O.of op) 2) := by rw [hC']; rfl
  have w1 : C[1]? = some (iPointer (BitVec.ofNat 16 3)) := by rw [hC']; rfl
  have w2 : C[2]? = some (iPointer (BitVec.ofNat 16 e)) := by rw [hC']; rfl
  have hop : isOp C 0 := ⟨_, w0, op_desc _ _⟩
  have subs : ∀ m : Mem, m.code.tail = C.tail → sub S.E m ⟨.code, 0⟩ 1 = .ok ⟨.code, 3⟩ ∧ sub S.E m ⟨.code, 0⟩ 2 = .ok ⟨.code, e⟩ := fun m hm => by
    obtain ⟨L', c1, c2⟩ := thing_reads (E := S.E) hop hm
    have u1 : word S.E m ⟨.code, 1⟩ = .ok (iPointer (BitVec.ofNat 16 3)) := word_of c1 (c2 _ _ w1 (by rw [i_desc]; omega))
    have u2 : word S.E m ⟨.code, 2⟩ = .ok (iPointer (BitVec.ofNat 16 e)) := word_of c1 (c2 _ _ w2 (by rw [i_desc]; omega))
    constructor
    · show deref S.E m deep ⟨.code, 0 + 1⟩ = _
      rw [deep, Nat.zero_add, deref_i (by omega) u1]
      exact deref_thing c1 (thing_agree c2 (thing_of_struct s1))
    · show deref S.E m deep ⟨.code, 0 + 2⟩ = _
      rw [deep, Nat.zero_add, deref_i (by omega) u2]
      exact deref_thing c1 (thing_agree c2 (thing_of_struct s0))
  obtain ⟨N, rfl⟩ : ∃ N', N = N' + 3 := ⟨N - 3, by omega⟩
  have ev1 : eval S.E S.O (N + 3) ⟨.code, 3⟩ ⟨C, [], 0, 0⟩ = .ok ⟨C, [], 0, 0⟩ := eval_struct s1
  have ev0 : eval S.E S.O (N + 3) ⟨.code, e⟩ ⟨C, [], 0, 0⟩ = .ok ⟨C, [], 0, 0⟩ := eval_struct s0
  have mem : members (eval S.E S.O (N + 3)) S.E ⟨.code, 0⟩ 2 1 ⟨C, [], 0, 0⟩ = .ok ⟨C, [], 0, 0⟩ := by
    simp only [members, (subs ⟨C, [], 0, 0⟩ rfl).1, (subs ⟨C, [], 0, 0⟩ rfl).2, Res.bind, ev1, ev0]
  have head : ∀ m : Mem, m.code.tail = C.tail → ∀ p v, structAt S.E.K C p = some v → ∃ k n, word S.E m ⟨.code, p⟩ = .ok (object k n) := fun m hm p v hs => by
    obtain ⟨L', c1, c2⟩ := thing_reads (E := S.E) hop hm
    rcases struct_shape hs with ⟨k, n, xs, _, h2, _⟩ | ⟨q, n, xs, _, _, h2, _⟩
    · exact ⟨_, _, word_of c1 (c2 _ _ h2 (by rw [object_desc']; omega))⟩
    · exact ⟨_, _, word_of c1 (c2 _ _ h2 (by rw [object_desc']; omega))⟩
  obtain ⟨ka, na, x1⟩ := head ⟨C, [], 0, 0⟩ rfl 3 v1 s1
  obtain ⟨kb, nb, x0⟩ := head ⟨C, [], 0, 0⟩ rfl e v0 s0
  have ht : (patch ⟨C, [], 0, 0⟩ 0 nil).code.tail = C.tail := tail_set0 C nil
  obtain ⟨kc, nc, y1⟩ := head _ ht 3 v1 s1
  obtain ⟨kd, nd, y0⟩ := head _ ht e v0 s0
  have np : ∀ k n, plain (object k n) = false := fun k n => by simp [plain, object_float, object_desc]
  obtain ⟨o, b, z1, z2⟩ := overload_gives hK hop s1 s0 ha ho ht rfl y1 y0
  refine ⟨o.log, ?_, z2⟩
  have ap : apply S.E op true ⟨.code, 0⟩ ⟨⟨C, [], 0, 0⟩, []⟩ = .ok (o, b) := by
    simp only [apply, (subs ⟨C, [], 0, 0⟩ rfl).1, (subs ⟨C, [], 0, 0⟩ rfl).2, Res.bind, x1, x0, np, Bool.and_self, Bool.false_eq_true, if_false, atomic, if_true,
      (subs _ ht).1, (subs _ ht).2, y1, y0, List.nil_append]
    exact z1
  rw [compound, expression_eq h0 h1 l0 l1 (by omega), Option.bind_some, hC, evaluate, mem]
  simp only [ap]

/-- The value searched for, or none, and how it is laid out. -/
theorem searched_result {S : Setup} (hK : S.E.K.apart) {N : Nat} (hN : 3 ≤ N) {op : Op} (ho : op = .sub ∨ op = .div) {c0 c1 : Code} {v0 v1 : Val}
    (h0 : valueIn S.E.K c0 3 = some v0) (h1 : valueIn S.E.K c1 3 = some v1) (ha : alike v1 v0) :
    match compute S.E.A S.E.K true op v1 v0 with
    | none => (result S.E S.O N op c0 c1).bind (searched N) = some []
    | some d => ∃ d', fit S.E.K d' ∧ stored d' = d ∧ (result S.E S.O N op c0 c1).bind (searched N) = some (layout S.E.K d') := by
  obtain ⟨w0, e0⟩ : ∃ w, c0[3]? = some w := by
    cases e : c0[3]? with
    | none => simp [valueIn, e] at h0
    | some w => exact ⟨w, rfl⟩
  obtain ⟨w1, e1⟩ : ∃ w, c1[3]? = some w := by
    cases e : c1[3]? with
    | none => simp [valueIn, e] at h1
    | some w => exact ⟨w, rfl⟩
  rcases value_struct h0 e0 with ⟨t0, x0, n0, rfl⟩ | ⟨q0, t0, rfl, s0⟩
  · rcases value_struct h1 e1 with ⟨t1, x1, n1, rfl⟩ | ⟨q1, t1, rfl, s1⟩
    · have b0 := num_some n0
      have b1 := num_some n1
      have key : ∀ x, (some [float x]).bind (searched N) = some (layout S.E.K (.num x)) := fun x => by
        obtain ⟨N, rfl⟩ : ∃ N', N = N' + 1 := ⟨N - 1, by omega⟩
        have hn : (float x == nil) = false := beq_eq_false_iff_ne.mpr fun e => by
          have := (num_some (num_float x)).2.2
          rw [e] at this; revert this; decide
        have hd := (num_some (num_float x)).2.2
        have h84 : ¬ getDescriptor (float x) = 0x84 := desc_ne (by rw [show (0x84 : BitVec 8).toNat = 132 from rfl]; omega)
        have hc : (getAtomCount (float x)).toNat = 0 := by
          have h1 : ∀ b : BitVec 8, 0xC0 ≤ b.toNat → ¬ getDescriptor (float x) = b := fun b hb => desc_ne (by omega)
          simp only [getAtomCount]
          rw [if_neg, if_neg (h1 _ (by decide)), if_neg (h1 _ (by decide)), if_neg (h1 _ (by decide))]
          · rfl
          · simp only [not_or]
            refine ⟨h1 _ (by decide), h1 _ (by decide), h1 _ (by decide), h1 _ (by decide), h1 _ (by decide), h1 _ (by decide), h1 _ (by decide), h1 _ (by decide),
              h1 _ (by decide), h1 _ (by decide), h1 _ (by decide), h1 _ (by decide), h1 _ (by decide)⟩
        have hv : valid [float x] = [float x] := by simp [valid, hn]
        rw [Option.bind_some, searched, hv]
        show (copy [float x] (N + 1) [] 0 0).map (·.1) = some [float x]
        simp only [copy, List.getElem?_cons_zero, hc]
        simp only [copyLoop, Nat.add_zero, List.getElem?_cons_zero, if_neg h84]
        rfl
      rcases ho with rfl | rfl
      · show ∃ d', _
        refine ⟨.num (S.E.A.sub x1 x0), trivial, rfl, ?_⟩
        simp only [result, mkValValue, e0, e1, b0.1, b1.1, Bool.and_self, if_true, b0.2.1, b1.2.1, numbersOf]
        exact key _
      · cases hz : S.E.A.isZero x0 with
        | true =>
          simp only [compute, numbers, hz, if_true, Option.map_none, result, mkValValue, e0, e1, b0.1, b1.1, Bool.and_self, b0.2.1, b1.2.1, numbersOf]
          rfl
        | false =>
          simp only [compute, numbers, hz, Bool.false_eq_true, if_false, Option.map_some]
          refine ⟨.num (S.E.A.div x1 x0), trivial, rfl, ?_⟩
          simp only [result, mkValValue, e0, e1, b0.1, b1.1, Bool.and_self, if_true, b0.2.1, b1.2.1, numbersOf, hz, Bool.false_eq_true, if_false]
          exact key _
    · obtain ⟨_, _, g1⟩ := struct_fit s1
      cases v1 with
      | num x => exact absurd rfl (g1 x)
      | obj k xs => exact absurd ha (by simp [alike])
      | vec xs => exact absurd ha (by simp [alike])
  · rcases value_struct h1 e1 with ⟨t1, x1, n1, rfl⟩ | ⟨q1, t1, rfl, s1⟩
    · obtain ⟨_, _, g0⟩ := struct_fit s0
      cases v0 with
      | num x => exact absurd rfl (g0 x)
      | obj k xs => exact absurd ha (by simp [alike])
      | vec xs => exact absurd ha (by simp [alike])
    · obtain ⟨r, r1, r2⟩ := compound_gives hK hN ho s0 s1 t0 t1 ha
      have nf : ∀ q, isFloat (iPointer (BitVec.ofNat 16 q)) = false := fun q => not_float (num_none (by rw [i_desc]; omega))
      have hr : result S.E S.O N op c0 c1 = some r := by
        simp only [result, mkValValue, e0, e1, nf, Bool.and_self, Bool.false_eq_true, if_false, r1]
      rw [hr, Option.bind_some]
      cases hc : compute S.E.A S.E.K true op v1 v0 with
      | none => rw [hc] at r2; exact searched_none r2
      | some d => rw [hc] at r2; exact searched_eq hK (by omega) r2

/-! ## Looking through the arguments -/

theorem firstArg_eq {f : Nat → Option Bool} {g : Nat → Bool} : ∀ (n k : Nat), (∀ j, k ≤ j → j < k + n → f j = some (g j)) →
    ∃ r, firstArg f n k = some r ∧ (∀ j, r = some j → k ≤ j ∧ j < k + n ∧ g j = true) ∧ (r = none → ∀ j, k ≤ j → j < k + n → g j = false)
  | 0, k, _ => ⟨none, rfl, (fun j e => by cases e), (fun _ j h1 h2 => by omega)⟩
  | n + 1, k, h => by
    have h0 := h k (by omega) (by omega)
    cases hg : g k with
    | true => exact ⟨some k, by simp [firstArg, h0, hg], (fun j e => by cases e; exact ⟨by omega, by omega, hg⟩), (fun e => by cases e)⟩
    | false =>
      obtain ⟨r, h1, h2, h3⟩ := firstArg_eq n (k + 1) fun j a b => h j (by omega) (by omega)
      refine ⟨r, by simp [firstArg, h0, hg, h1], fun j e => ?_, fun e j a b => ?_⟩
      · obtain ⟨a, b, c⟩ := h2 j e
        exact ⟨by omega, by omega, c⟩
      · rcases Nat.eq_or_lt_of_le a with rfl | a
        · exact hg
        · exact h3 e j (by omega) (by omega)

/-- The loop over a command's arguments finds one that is close to the value, if there is one. -/
theorem cmdLoop_ok {S : Setup} (hK : S.E.K.apart) {N : Nat} (hN : 300 ≤ N) {op : Op} (ho : op = .sub ∨ op = .div) {c0 c1 cause : Code} {h : Word} {v0 v1 : Val}
    (hc : cause[0]? = some h) (hh : asOpcode h = S.G.cmd) (hm : Made S cause)
    (h0 : valueIn S.E.K c0 3 = some v0) (h1 : valueIn S.E.K c1 3 = some v1) (ha : alike v1 v0) :
    ∃ b r, patternArgs S cause = some b ∧ cmdLoop S N op c0 c1 cause = some r ∧
      (∀ k, r = some k → ∃ i a d, k = b + i ∧ Argument S cause i a ∧ compute S.E.A S.E.K true op v1 v0 = some d ∧ close S.t a d = true) ∧
      (r = none → ∀ i a d, Argument S cause i a → compute S.E.A S.E.K true op v1 v0 = some d → close S.t a d = false) := by
  obtain ⟨b, n, hb, hn, hargs⟩ := hm.args
  have hb' := hb
  simp only [arguments, hc, Option.bind_some, hh, if_true, Option.bind_eq_some_iff, Option.map_eq_some_iff, Prod.mk.injEq] at hb
  obtain ⟨p, p1, s, s1, rfl, rfl⟩ := hb
  have hpa : patternArgs S cause = some (asIndex p).toNat := by
    simp only [patternArgs, hc, Option.bind_some, p1, hh, if_true]
  have hs := searched_result hK (show 3 ≤ N by omega) ho h0 h1 ha
  cases hd : compute S.E.A S.E.K true op v1 v0 with
  | none =>
    rw [hd] at hs
    refine ⟨_, none, hpa, ?_, (fun k e => by cases e), (fun _ i a d _ e => by cases e)⟩
    simp only [cmdLoop, cmdArgs, p1, s1]
    simp only at hs
    rw [hs]
  | some d =>
    rw [hd] at hs
    obtain ⟨d', f1, f2, f3⟩ := hs
    obtain ⟨w, ws, hl⟩ := layout_ne S.E.K d'
    obtain ⟨r, r1, r2, r3⟩ := firstArg_eq (f := argMatch S.oc S.t N cause (layout S.E.K d'))
      (g := fun k => (valueIn S.E.K cause k).elim false (close S.t · (stored d'))) (getAtomCount s).toNat ((asIndex p).toNat + 1) fun j a b => by
        obtain ⟨u, hu⟩ : ∃ u, cause[j]? = some u := ⟨_, List.getElem?_eq_getElem (by omega)⟩
        exact argMatch_eq hK hm hu (hargs (j - (asIndex p).toNat) (by omega) (by omega) u (by rw [show (asIndex p).toNat + (j - (asIndex p).toNat) = j by omega]; exact hu)) f1 hN
    refine ⟨_, r, hpa, ?_, fun k e => ?_, fun e i a d'' ⟨b', n', q1, q2, q3, q4⟩ q5 => ?_⟩
    · simp only [cmdLoop, cmdArgs, p1, s1]
      rw [f3]
      rw [hl] at r1 ⊢
      exact r1
    · obtain ⟨a1, a2, a3⟩ := r2 k e
      cases hv : valueIn S.E.K cause k with
      | none => rw [hv] at a3; cases a3
      | some a =>
        rw [hv] at a3
        refine ⟨k - (asIndex p).toNat, a, d, by omega, ⟨_, _, hb', by omega, by omega, ?_⟩, rfl, by rw [← f2]; exact a3⟩
        rw [show (asIndex p).toNat + (k - (asIndex p).toNat) = k by omega]; exact hv
    · cases q5
      rw [hb'] at q1
      cases q1
      have := r3 e ((asIndex p).toNat + i) (by omega) (by omega)
      simp only [q4, Option.elim_some, f2] at this
      exact this

/-- Instances of models: a number among the arguments. -/
theorem nums_loop {S : Setup} {cause : Code} {x : BitVec 32} (n k : Nat) (hl : k + n ≤ cause.length) :
    ∃ r, firstArg (numMatch S.t cause x) n k = some r ∧
      (∀ j, r = some j → k ≤ j ∧ j < k + n ∧ ∃ a, valueIn S.E.K cause j = some (.num a) ∧ Match.equal S.t a x = true) ∧
      (r = none → ∀ j, k ≤ j → j < k + n → ∀ a, valueIn S.E.K cause j = some (.num a) → Match.equal S.t a x = false) := by
  have hnum : ∀ {w : Word}, isFloat w = true → num? w = some (asFloat w) ∧ w.toNat < 2 ^ 31 := fun {w} hw => by
    rw [isFloat_eq, decide_eq_true_eq] at hw
    have h2 : w.toNat < 2 ^ 31 := by omega
    refine ⟨?_, h2⟩
    have : num? w = some (BitVec.ofNat 32 (w.toNat * 2)) := by simp [num?, h2]
    rw [this, (num_some this).2.1]
  obtain ⟨r, r1, r2, r3⟩ := firstArg_eq (f := numMatch S.t cause x)
    (g := fun j => (cause[j]?).elim false fun w => isFloat w && Match.equal S.t (asFloat w) x) n k fun j a b => by
      obtain ⟨u, hu⟩ : ∃ u, cause[j]? = some u := ⟨_, List.getElem?_eq_getElem (by omega)⟩
      simp [numMatch, hu]
  refine ⟨r, r1, fun j e => ?_, fun e j a b y hy => ?_⟩
  · obtain ⟨a, b, c⟩ := r2 j e
    obtain ⟨u, hu⟩ : ∃ u, cause[j]? = some u := ⟨_, List.getElem?_eq_getElem (by omega)⟩
    simp only [hu, Option.elim_some, Bool.and_eq_true] at c
    obtain ⟨m1, m2⟩ := hnum c.1
    exact ⟨a, b, asFloat u, by simp only [valueIn, hu, Option.bind_some, m2, if_true, m1, Option.map_some], c.2⟩
  · obtain ⟨u, hu⟩ : ∃ u, cause[j]? = some u := ⟨_, List.getElem?_eq_getElem (by omega)⟩
    have c := r3 e j a b
    rcases value_struct hy hu with ⟨_, z, m1, m2⟩ | ⟨q, _, _, s⟩
    · cases m2
      obtain ⟨m3, m4, _⟩ := num_some m1
      simpa only [hu, Option.elim_some, m3, m4, Bool.true_and] using c
    · exact absurd rfl ((struct_fit s).2.2 y)

end Verif.Law
