import Verif.Law.Arg
import Verif.Usr.Eval
import Verif.Usr.Scale
/-!
# The difference and the quotient computed
-/
namespace Verif.Law
open Verif.Atom hiding Val kept
open Verif.Words Verif.Usr

/-! ## Copying -/

theorem grow_self {dst : Code} {i : Nat} (h : dst.length = i) : grow dst i = dst := by simp [grow, h]

theorem grow_length {dst : Code} {i : Nat} (h : dst.length ≤ i) : (grow dst i).length = i := by simp [grow]; omega

theorem put_end {dst : Code} {i : Nat} (h : dst.length ≤ i) (w : Word) : put dst i w = grow dst i ++ [w] := by
  have e : grow dst (i + 1) = grow dst i ++ [Atom.default] := by
    simp only [grow]
    rw [show i + 1 - dst.length = (i - dst.length) + 1 by omega, List.replicate_succ', List.append_assoc]
  have hl := grow_length h
  rw [put, e, List.set_append_right _ _ (by omega), hl]
  simp

theorem put_at {dst : Code} (w : Word) (h : dst.length = n) : put dst n w = dst ++ [w] := by
  rw [put_end (by omega), grow_self h]

theorem float_of_num {w : Word} {x : BitVec 32} (h : num? w = some x) : w = float x := by
  have hk : num? (float x) = some x := by
    rw [num_float]
    congr 1
    apply BitVec.eq_of_toNat_eq
    unfold num? at h
    split_ifs at h
    cases h
    simp only [Usr.kept, BitVec.toNat_ofNat]
    omega
  exact num_inj h hk

/-- Words that are numbers are copied as they are. -/
theorem loop_nums {f : Code → Nat → Nat → Option (Code × Nat)} {src : Code} {idx start ext : Nat} :
    ∀ (n : Nat) {k : Nat} {xs : List (BitVec 32)} {dst : Code}, nums src (idx + k) n = some xs → dst.length = start + k →
      copyLoop f src idx start n k dst ext = some (dst ++ xs.map float, ext) := by
  intro n
  induction n with
  | zero => intro k xs dst h _; cases h; simp [copyLoop]
  | succ n ih =>
    intro k xs dst h hl
    simp only [nums, Option.bind_eq_some_iff, Option.map_eq_some_iff] at h
    obtain ⟨w, h1, x, h2, ys, h3, rfl⟩ := h
    have hd := (num_some h2).2.2
    have hw := float_of_num h2
    simp only [copyLoop, h1]
    rw [if_neg (desc_ne (by rw [show (0x84 : BitVec 8).toNat = 132 from rfl]; omega)), put_at w hl,
      ih (k := k + 1) (by rw [show idx + (k + 1) = idx + k + 1 by omega]; exact h3) (by simp; omega), hw]
    simp

/-- A value as laid out from a position on. -/
def layoutAt (K : Classes) (e : Nat) : Val → Code
  | .num y => [float y]
  | .obj k ys => object k (BitVec.ofNat 8 ys.length) :: ys.map float
  | .vec ys => object K.vn 1 :: iPointer (BitVec.ofNat 16 (e + 2)) :: Atom.set (BitVec.ofNat 8 ys.length) :: ys.map float

theorem copy_struct {K : Classes} {src dst : Code} {idx ext N : Nat} {v : Val} (h : structAt K src idx = some v) (hl : dst.length ≤ ext) (hN : 2 ≤ N) :
    copy src N dst ext idx = some (grow dst ext ++ layoutAt K ext v, ext + (layoutAt K ext v).length) := by
  obtain ⟨N, rfl⟩ : ∃ N', N = N' + 2 := ⟨N - 2, by omega⟩
  have hg := grow_length hl
  rcases struct_shape h with ⟨k, n, xs, hs, h1, h2, rfl⟩ | ⟨q, n, xs, a1, a2, a3, a4, a5, a6, rfl⟩
  · have hn : (getAtomCount (object k (BitVec.ofNat 8 n))).toNat = n := by
      rw [object_count, BitVec.toNat_ofNat]; have := sized_pos hs; omega
    have hx := nums_length h2
    simp only [copy, h1, hn]
    simp only [copyLoop, Nat.add_zero, h1]
    rw [if_neg (desc_ne (by rw [object_desc']; decide)), put_end hl, loop_nums n (k := 1) h2 (by simp; omega)]
    simp [layoutAt, hx]; omega
  · have hn : (getAtomCount (object K.vn 1)).toNat = 1 := by rw [object_count]; rfl
    have hm : (getAtomCount (Atom.set (BitVec.ofNat 8 n))).toNat = n := set_len a2
    have hx := nums_length a6
    rw [copy]
    simp only [a3, hn]
    simp only [copyLoop, Nat.add_zero, a3, a4]
    rw [if_neg (desc_ne (by rw [object_desc']; decide)), if_pos (desc_is (by rw [i_desc]; rfl)), put_end hl, i_index a1,
      put_at (n := ext + 1) _ (by simp; omega)]
    rw [copy]
    simp only [a5, hm]
    simp only [copyLoop, Nat.add_zero, a5]
    rw [if_neg (desc_ne (by rw [set_desc]; decide)), put_at (n := ext + (1 + 1)) _ (by simp; omega), loop_nums n (k := 1) a6 (by simp; omega)]
    simp [layoutAt, hx]; omega

/-! ## The expression -/

/-- Numbers as atoms hold them. -/
def keptVal : Val → Prop
  | .num x => Usr.kept x = x
  | .obj _ xs => xs.map Usr.kept = xs
  | .vec xs => xs.map Usr.kept = xs

theorem kept_num {w : Word} {x : BitVec 32} (h : num? w = some x) : Usr.kept x = x := by
  have := num_float x
  rw [← float_of_num h, h] at this
  exact (Option.some.inj this).symm

theorem kept_nums {L : Code} {n : Nat} : ∀ {i : Nat} {xs : List (BitVec 32)}, nums L i n = some xs → xs.map Usr.kept = xs := by
  induction n with
  | zero => intro i xs h; cases h; rfl
  | succ n ih =>
    intro i xs h
    simp only [nums, Option.bind_eq_some_iff, Option.map_eq_some_iff] at h
    obtain ⟨w, _, x, h2, ys, h, rfl⟩ := h
    simp [ih h, kept_num h2]

theorem struct_fit {K : Classes} {L : Code} {p : Nat} {v : Val} (h : structAt K L p = some v) : fit K v ∧ keptVal v ∧ ∀ x, v ≠ .num x := by
  rcases struct_shape h with ⟨k, n, xs, hs, h1, h2, rfl⟩ | ⟨q, n, xs, a1, a2, a3, a4, a5, a6, rfl⟩
  · exact ⟨by simpa [fit, nums_length h2] using hs, kept_nums h2, fun _ e => by cases e⟩
  · exact ⟨by simpa [fit, nums_length a6] using a2, kept_nums a6, fun _ e => by cases e⟩

theorem struct_layout {K : Classes} (hK : K.apart) {L R : Code} {v : Val} (hf : fit K v) (hk : keptVal v) (hn : ∀ x, v ≠ .num x)
    (hl : L.length + 259 ≤ 4096) : structAt K (L ++ (layoutAt K L.length v ++ R)) L.length = some v := by
  rw [← List.append_assoc]
  apply struct_agree (agree_append _ _)
  cases v with
  | num x => exact absurd rfl (hn x)
  | obj k ys => rw [layoutAt, struct_obj hK L hf]; exact congrArg (fun z => some (Val.obj k z)) hk
  | vec ys =>
    have hf' : ys.length < 256 := hf
    have := struct_vec hK L (ys := ys) (by omega) hf'
    rw [layoutAt, Nat.add_comm L.length 2, this]; exact congrArg (fun z => some (Val.vec z)) hk

theorem layout_length {K : Classes} {e : Nat} {v : Val} (hf : fit K v) : (layoutAt K e v).length ≤ 259 := by
  cases v with
  | num x => simp [layoutAt]
  | obj k ys => have := sized_pos hf; simp [layoutAt]; omega
  | vec ys => have hf' : ys.length < 256 := hf; simp [layoutAt]; omega

/-- The expression: the operator, pointers to its operands, the operands. -/
def exprOf (K : Classes) (op : BitVec 16) (v1 v0 : Val) : Code :=
  let e := 3 + (layoutAt K 3 v1).length
  [operator op 2, iPointer (BitVec.ofNat 16 3), iPointer (BitVec.ofNat 16 e)] ++ (layoutAt K 3 v1 ++ layoutAt K e v0)

theorem value_struct {K : Classes} {c : Code} {k : Nat} {w : Word} {v : Val} (h : valueIn K c k = some v) (hw : c[k]? = some w) :
    (w.toNat < 2 ^ 31 ∧ ∃ x, num? w = some x ∧ v = .num x) ∨
    (∃ q, q < 4096 ∧ w = iPointer (BitVec.ofNat 16 q) ∧ structAt K c q = some v) := by
  simp only [valueIn, hw, Option.bind_some] at h
  split_ifs at h with h1 h2
  · obtain ⟨x, e1, e2⟩ := Option.map_eq_some_iff.mp h
    exact .inl ⟨h1, x, e1, e2.symm⟩
  · exact .inr ⟨_, by omega, h2, h⟩

theorem expression_eq {K : Classes} {N : Nat} {op : BitVec 16} {c0 c1 : Code} {q0 q1 : Nat} {v0 v1 : Val} (h0 : structAt K c0 q0 = some v0)
    (h1 : structAt K c1 q1 = some v1) (l0 : q0 < 4096) (l1 : q1 < 4096) (hN : 2 ≤ N) :
    expression N op c0 c1 (iPointer (BitVec.ofNat 16 q0)) (iPointer (BitVec.ofNat 16 q1)) = some (exprOf K op v1 v0) := by
  have d : ∀ q, getDescriptor (iPointer (BitVec.ofNat 16 q)) = 0x84 := fun q => desc_is (by rw [i_desc]; rfl)
  have e1 : operand N c1 (iPointer (BitVec.ofNat 16 q1)) 1 2 [operator op 2] 1 =
      some ([operator op 2, iPointer (BitVec.ofNat 16 3), Atom.default] ++ layoutAt K 3 v1, 3 + (layoutAt K 3 v1).length) := by
    rw [operand, if_pos (d _), put_at (n := 1) _ rfl, i_index l1, copy_struct h1 (by simp) hN]
    rfl
  have e0 : ∀ X : Code, X.length = 3 + (layoutAt K 3 v1).length → ∀ Y, put X 2 (iPointer (BitVec.ofNat 16 (3 + (layoutAt K 3 v1).length + 0))) = Y →
      (operand N c0 (iPointer (BitVec.ofNat 16 q0)) 2 0 X (3 + (layoutAt K 3 v1).length)).map (·.1) =
        some (Y ++ layoutAt K (3 + (layoutAt K 3 v1).length) v0) := fun X hX Y hY => by
    have hl : Y.length = 3 + (layoutAt K 3 v1).length := by
      rw [← hY, put]; simp [grow]; omega
    rw [operand, if_pos (d _), hY, i_index l0, Nat.add_zero, copy_struct h0 (by omega) hN, grow_self hl]
    rfl
  simp only [expression, e1]
  rw [e0 _ (by simp; omega) ([operator op 2, iPointer (BitVec.ofNat 16 3), iPointer (BitVec.ofNat 16 (3 + (layoutAt K 3 v1).length))] ++ layoutAt K 3 v1)]
  · simp [exprOf]
  · simp [put, grow]

/-! ## Applying the operator -/

/-- A context whose components can be read whatever is added to the value array. -/
def Reads (E : Env) (C : Code) (c : Ctx) (xs : List (BitVec 32)) : Prop := ∀ m : Mem, m.code.tail = C.tail → Comps E m c xs

theorem parts_log {E : Env} {f : Mem → Nat → Res (BitVec 32)} {T : Code} : ∀ (ys : List (BitVec 32)) (k : Nat) (o : Out), o.m.code.tail = T →
    (∀ m : Mem, m.code.tail = T → ∀ j y, ys[j]? = some y → f m (k + j) = .ok y) →
    ∃ m, parts E true f ys.length k o = .ok ⟨m, o.log ++ ys.map float⟩ ∧ m.code.tail = T
  | [], _, o, ho, _ => ⟨o.m, by simp [parts], ho⟩
  | y :: ys, k, o, ho, h => by
    have h0 : f o.m k = .ok y := h o.m ho 0 y rfl
    obtain ⟨m, h1, h2⟩ := parts_log (E := E) (T := T) ys (k + 1) (part E true (float y) o) (by simp only [part, push_code]; exact ho)
      fun m hm j z hz => by
        rw [show k + 1 + j = k + (j + 1) by omega]
        exact h m hm (j + 1) z (by simpa using hz)
    refine ⟨m, ?_, h2⟩
    simp only [List.length_cons, parts, h0, Res.bind, h1]
    simp [part]

theorem tail_set0 (C : Code) (w : Word) : (C.set 0 w).tail = C.tail := by cases C <;> rfl

theorem head_log (E : Env) (w : Word) (o : Out) : (head E true 0 w o).log = o.log ++ [w] ∧ (head E true 0 w o).m.code.tail = o.m.code.tail := by
  simp only [head, part, if_true, push_code, patch, tail_set0, and_self]

theorem fixed_log {E : Env} {f : Mem → Nat → Res (BitVec 32)} {T : Code} {k : BitVec 16} {ys : List (BitVec 32)} {o : Out} (ho : o.m.code.tail = T)
    (h : ∀ m : Mem, m.code.tail = T → ∀ j y, ys[j]? = some y → f m (j + 1) = .ok y) :
    ∃ m, fixed E true 0 k ys.length f o = .ok ⟨m, o.log ++ object k (BitVec.ofNat 8 ys.length) :: ys.map float⟩ ∧ m.code.tail = T := by
  obtain ⟨h1, h2⟩ := head_log E (object k (BitVec.ofNat 8 ys.length)) o
  obtain ⟨m, h3, h4⟩ := parts_log (E := E) (f := f) (T := T) ys 1 _ (h2.trans ho) fun m hm j y hy => by rw [Nat.add_comm 1 j]; exact h m hm j y hy
  exact ⟨m, by rw [fixed, h3, h1]; simp, h4⟩

theorem counted_log {E : Env} {f : Mem → Nat → Res (BitVec 32)} {T : Code} {ys : List (BitVec 32)} {o : Out} (ho : o.m.code.tail = T)
    (hv : o.m.vals = []) (h : ∀ m : Mem, m.code.tail = T → ∀ j y, ys[j]? = some y → f m (j + 1) = .ok y) :
    ∃ m, counted E true 0 ys.length f o = .ok ⟨m, o.log ++ layout E.K (.vec ys)⟩ ∧ m.code.tail = T := by
  obtain ⟨h1, h2⟩ := head_log E (object E.K.vn 1) o
  have hl : ((head E true 0 (object E.K.vn 1) o).m.code.tail = T) := h2.trans ho
  obtain ⟨m, h3, h4⟩ := parts_log (E := E) (f := f) (T := T) ys 1 (part E true (Atom.set (BitVec.ofNat 8 ys.length))
      (part E true (iPointer (BitVec.ofNat 16 (2 + o.m.vals.length))) (head E true 0 (object E.K.vn 1) o)))
    (by simp only [part, push_code]; exact hl) fun m hm j y hy => by rw [Nat.add_comm 1 j]; exact h m hm j y hy
  refine ⟨m, by
    rw [counted, h3]
    simp only [part, if_true, h1, layout, hv, List.length_nil, List.append_assoc, List.cons_append, List.nil_append], h4⟩

/-- What the operator leaves for the learner: the value as laid out, and whether there is one. -/
def Gives (K : Classes) (r : Code) : Option Val → Prop
  | none => valid r = []
  | some d => ∃ d' R, fit K d' ∧ (∀ x, d' ≠ .num x) ∧ stored d' = d ∧ valid r = layout K d' ++ R

theorem valid_nil (r : Code) : valid (nil :: r) = valid r := by simp [valid]

theorem valid_struct {k : BitVec 16} {n : BitVec 8} (r : Code) : valid (object k n :: r) = object k n :: r := by
  have : (object k n == nil) = false := beq_eq_false_iff_ne.mpr fun e => by
    have := object_desc' k n
    rw [e] at this
    revert this; decide
  simp [valid, this]

theorem gives_obj {K : Classes} {k : BitVec 16} {ys : List (BitVec 32)} {d : Val} (R : Code) (hs : sized K k ys.length) (hd : d = .obj k (ys.map Usr.kept)) :
    Gives K (nil :: (object k (BitVec.ofNat 8 ys.length) :: ys.map float) ++ R) (some d) := by
  refine ⟨.obj k ys, R, hs, (fun x e => by cases e), hd.symm, ?_⟩
  rw [List.cons_append, valid_nil, List.cons_append, valid_struct]; rfl

theorem gives_vec {K : Classes} {ys : List (BitVec 32)} {d : Val} (hs : ys.length < 256) (hd : d = .vec (ys.map Usr.kept)) :
    Gives K (nil :: layout K (.vec ys)) (some d) := by
  refine ⟨.vec ys, [], hs, (fun x e => by cases e), hd.symm, ?_⟩
  rw [valid_nil, layout, valid_struct]; simp

theorem gives_no {K : Classes} : Gives K [nil, nil] none := by simp [Gives, valid]


/-! ## Operands in the code of the expression -/

/-- The operand at a position of the code, the first word aside, and the value array left alone. -/
theorem thing_reads {E : Env} {C : Code} (hop : isOp C 0) {m : Mem} (hm : m.code.tail = C.tail) :
    ∃ L', codeOf E m .code = some L' ∧ Agree C L' := by
  refine ⟨m.code, rfl, fun j w hw hd => ?_⟩
  cases j with
  | zero =>
    obtain ⟨u, h1, h2⟩ := hop
    rw [hw] at h1; cases h1; exact absurd h2 hd
  | succ j =>
    have e : ∀ L : Code, L[j + 1]? = L.tail[j]? := fun L => by cases L <;> simp
    rw [e, hm, ← e]; exact hw

theorem obj_reads {E : Env} {C : Code} {p : Nat} {k : BitVec 16} {xs : List (BitVec 32)} (h : structAt E.K C p = some (.obj k xs)) (hop : isOp C 0)
    {m : Mem} (hm : m.code.tail = C.tail) :
    word E m ⟨.code, p⟩ = .ok (object k (BitVec.ofNat 8 xs.length)) ∧ Comps E m ⟨.code, p⟩ xs := by
  obtain ⟨L', c1, c2⟩ := thing_reads (E := E) hop hm
  rcases struct_shape h with ⟨k', n, ys, a1, a2, a3, e⟩ | ⟨_, _, _, _, _, _, _, _, _, e⟩
  · cases e
    rw [nums_length a3]
    exact ⟨word_of c1 (c2 _ _ a2 (by rw [object_desc']; omega)), comps_nums c1 (nums_agree c2 a3)⟩
  · cases e

theorem vec_reads {E : Env} {C : Code} {p : Nat} {xs : List (BitVec 32)} (h : structAt E.K C p = some (.vec xs)) (hop : isOp C 0) :
    ∃ q, ∀ {m : Mem}, m.code.tail = C.tail → word E m ⟨.code, p⟩ = .ok (object E.K.vn 1) ∧ sub E m ⟨.code, p⟩ 1 = .ok ⟨.code, q⟩ ∧
      word E m ⟨.code, q⟩ = .ok (Atom.set (BitVec.ofNat 8 xs.length)) ∧ Comps E m ⟨.code, q⟩ xs := by
  rcases struct_shape h with ⟨_, _, _, _, _, _, e⟩ | ⟨q, n, ys, a1, a2, a3, a4, a5, a6, e⟩
  · cases e
  · cases e
    refine ⟨q, fun {m} hm => ?_⟩
    obtain ⟨L', c1, c2⟩ := thing_reads (E := E) hop hm
    rw [nums_length a6]
    have w5 : word E m ⟨.code, q⟩ = .ok (Atom.set (BitVec.ofNat 8 n)) := word_of c1 (c2 _ _ a5 (by rw [set_desc]; omega))
    refine ⟨word_of c1 (c2 _ _ a3 (by rw [object_desc']; omega)), ?_, w5, comps_nums c1 (nums_agree c2 a6)⟩
    have w4 : word E m ⟨.code, p + 1⟩ = .ok (iPointer (BitVec.ofNat 16 q)) := word_of c1 (c2 _ _ a4 (by rw [i_desc]; omega))
    show deref E m deep ⟨.code, p + 1⟩ = _
    rw [deep, deref_i a1 w4]
    exact deref_stop w5 (by rw [set_desc]; omega) (by rw [set_desc]; omega) (by rw [set_desc]; omega)

set_option maxHeartbeats 800000 in
/-- The two operators used, on structures of the same class. -/
theorem overload_gives {E : Env} (hK : E.K.apart) {C : Code} {p1 p0 : Nat} {v1 v0 : Val} (hop : isOp C 0)
    (h1 : structAt E.K C p1 = some v1) (h0 : structAt E.K C p0 = some v0) (ha : alike v1 v0) {op : Op} (ho : op = .sub ∨ op = .div)
    {m : Mem} (hm : m.code.tail = C.tail) (hv : m.vals = []) {wl wr : Word} (wl1 : word E m ⟨.code, p1⟩ = .ok wl) (wr1 : word E m ⟨.code, p0⟩ = .ok wr) :
    ∃ o b, overload E op true 0 ⟨.code, p1⟩ ⟨.code, p0⟩ wl wr ⟨m, [nil]⟩ = .ok (o, b) ∧ Gives E.K o.log (compute E.A E.K true op v1 v0) := by
  obtain ⟨n1, n2, n3, n4, n5, n6, l1, l2, l3, l4⟩ := hK.ne
  obtain ⟨f1, _, g1⟩ := struct_fit h1
  obtain ⟨f0, _, g0⟩ := struct_fit h0
  have NO : ∀ C' : Out, C'.log = [nil] → ∃ o b, no true 0 C' = .ok (o, b) ∧ Gives E.K o.log none := fun C' e =>
    ⟨_, _, rfl, by simp only [atomic, if_true, e]; exact gives_no⟩
  cases v1 with
  | num x => exact absurd rfl (g1 x)
  | obj k xs =>
    cases v0 with
    | num x => exact absurd rfl (g0 x)
    | vec ys => exact absurd ha (by simp [alike])
    | obj j ys =>
      have hkj : k = j := ha
      subst hkj
      have hl : xs.length = ys.length := sized_unique hK f1 f0
      have a1 := fun {m} => obj_reads (m := m) h1 hop
      have a0 := fun {m} => obj_reads (m := m) h0 hop
      have e1 := (a1 hm).1
      have e0 := (a0 hm).1
      rw [wl1] at e1
      rw [wr1] at e0
      cases e1
      cases e0
      rcases ho with rfl | rfl
      · have hz : (xs.zipWith E.A.sub ys).length = xs.length := by rw [List.length_zipWith]; omega
        obtain ⟨m', e2, e3⟩ := fixed_log (E := E) (f := both E E.A.sub ⟨.code, p1⟩ ⟨.code, p0⟩) (T := C.tail) (k := k) (ys := xs.zipWith E.A.sub ys)
          (o := ⟨m, [nil]⟩) hm fun m' hm' j y hy => both_comps E.A.sub (a1 hm').2 (a0 hm').2 hy
        have hc : compute E.A E.K true .sub (.obj k xs) (.obj k ys) = some (.obj k ((xs.zipWith E.A.sub ys).map Usr.kept)) := by
          simp [compute, zip]
        rw [hz] at e2
        have G := fun R => gives_obj (K := E.K) (k := k) (ys := xs.zipWith E.A.sub ys) R (by rw [hz]; exact f1) rfl
        rw [hc]
        rcases f1 with ⟨rfl, h3⟩ | ⟨rfl, h3⟩ | ⟨rfl, h3⟩
        · rw [h3] at e2
          refine ⟨?o1, true, ?e1, ?g1⟩
          case e1 =>
            simp only [overload, addSub, is_object l1, beq_self_eq_true, Bool.and_self, if_true, e2, yes, Res.bind]
            rfl
          case g1 =>
            have := G []
            rw [List.append_nil, hz, h3] at this
            exact this
        · rw [h3] at e2
          refine ⟨?o2, true, ?e2, ?g2⟩
          case e2 =>
            simp only [overload, addSub, is_object l2, beq_eq_false_iff_ne.mpr n1.symm, beq_self_eq_true, Bool.and_self, if_true, Bool.false_eq_true, if_false,
              e2, yes, Res.bind]
            rfl
          case g2 =>
            have := G []
            rw [List.append_nil, hz, h3] at this
            exact this
        · rw [h3] at e2
          refine ⟨?o3, false, ?e3, ?g3⟩
          case e3 =>
            simp only [overload, addSub, is_object l4, beq_eq_false_iff_ne.mpr n3.symm, beq_eq_false_iff_ne.mpr n5.symm, beq_eq_false_iff_ne.mpr n6.symm,
              beq_self_eq_true, Bool.and_self, if_true, Bool.false_eq_true, if_false, e2, no, Res.bind]
            rfl
          case g3 =>
            have := G [nil]
            rw [hz, h3] at this
            exact this
      · rcases f1 with ⟨rfl, h3⟩ | ⟨rfl, h3⟩ | ⟨rfl, h3⟩
        · have hc : compute E.A E.K true .div (.obj E.K.v3 xs) (.obj E.K.v3 ys) = none := by simp [compute, n3]
          rw [hc]
          simp only [overload, divOp, is_object l1, beq_self_eq_true, if_true, divisor, object_float, Bool.false_and, Bool.false_eq_true, if_false]
          exact NO _ rfl
        · have hc : compute E.A E.K true .div (.obj E.K.v2 xs) (.obj E.K.v2 ys) = none := by simp [compute, n5]
          rw [hc]
          simp only [overload, divOp, is_object l2, beq_eq_false_iff_ne.mpr n1.symm, beq_self_eq_true, if_true, divisor, object_float, Bool.false_and, Bool.false_eq_true,
            if_false]
          exact NO _ rfl
        · have h3' : ys.length = 4 := by omega
          obtain ⟨e3, e4⟩ := quat_quotient E.A h3 h3'
          have hc : compute E.A E.K true .div (.obj E.K.qt xs) (.obj E.K.qt ys) = some (.obj E.K.qt ((qdiv E.A xs ys).map Usr.kept)) := by
            simp [compute]
          obtain ⟨m', e2, _⟩ := fixed_log (E := E) (f := given (qdiv E.A xs ys)) (T := C.tail) (k := E.K.qt) (ys := qdiv E.A xs ys)
            (o := ⟨m, [nil]⟩) hm fun m' hm' j y hy => given_ok _ m' hy
          have G := gives_obj (K := E.K) (k := E.K.qt) (ys := qdiv E.A xs ys) [] (by rw [e4]; exact .inr (.inr ⟨rfl, rfl⟩)) rfl
          rw [e4] at e2 G
          rw [hc]
          refine ⟨?o4, true, ?e4, ?g4⟩
          case e4 =>
            simp only [overload, divOp, Bool.false_eq_true, if_false, is_object l4, beq_eq_false_iff_ne.mpr n3.symm, beq_eq_false_iff_ne.mpr n5.symm,
              beq_eq_false_iff_ne.mpr n6.symm, beq_self_eq_true, Bool.and_self, if_true, four_ok (a1 hm).2 h3, four_ok (a0 hm).2 h3', Res.bind, e3, yes, e2]
            rfl
          case g4 =>
            rw [List.append_nil] at G
            exact G
  | vec xs =>
    cases v0 with
    | num x => exact absurd rfl (g0 x)
    | obj k ys => exact absurd ha (by simp [alike])
    | vec ys =>
      obtain ⟨q1, a1⟩ := vec_reads h1 hop
      obtain ⟨q0, a0⟩ := vec_reads h0 hop
      obtain ⟨b1, b2, b3, b4⟩ := a1 hm
      obtain ⟨c1, c2, c3, c4⟩ := a0 hm
      rw [wl1] at b1
      rw [wr1] at c1
      cases b1
      cases c1
      have f1' : xs.length < 256 := f1
      have f0' : ys.length < 256 := f0
      rcases ho with rfl | rfl
      · by_cases hlen : xs.length = ys.length
        · have hz : (xs.zipWith E.A.sub ys).length = ys.length := by rw [List.length_zipWith]; omega
          obtain ⟨m', e2, _⟩ := counted_log (E := E) (f := both E E.A.sub ⟨.code, q1⟩ ⟨.code, q0⟩) (T := C.tail) (ys := xs.zipWith E.A.sub ys)
            (o := ⟨m, [nil]⟩) hm hv fun m' hm' j y hy => both_comps E.A.sub (a1 hm').2.2.2 (a0 hm').2.2.2 hy
          have hc : compute E.A E.K true .sub (.vec xs) (.vec ys) = some (.vec ((xs.zipWith E.A.sub ys).map Usr.kept)) := by
            simp [compute, zip, hlen]
          rw [hz] at e2
          rw [hc]
          refine ⟨?o5, true, ?e5, ?g5⟩
          case e5 =>
            simp only [overload, addSub, is_object l3, beq_eq_false_iff_ne.mpr n2.symm, beq_eq_false_iff_ne.mpr n4.symm, beq_self_eq_true, Bool.and_self, if_true,
              Bool.false_eq_true, if_false, b2, c2, Res.bind, b3, c3, hlen, set_len f0', e2, yes]
            rfl
          case g5 =>
            exact gives_vec (by rw [hz]; exact f0') rfl
        · have hc : compute E.A E.K true .sub (.vec xs) (.vec ys) = none := by simp [compute, hlen]
          have hne : ¬ getAtomCount (Atom.set (BitVec.ofNat 8 xs.length)) = getAtomCount (Atom.set (BitVec.ofNat 8 ys.length)) := fun e =>
            hlen (by rw [← set_len f1', ← set_len f0', e])
          rw [hc]
          simp only [overload, addSub, is_object l3, beq_eq_false_iff_ne.mpr n2.symm, beq_eq_false_iff_ne.mpr n4.symm, beq_eq_false_iff_ne.mpr n6, beq_self_eq_true,
            Bool.and_self, if_true, Bool.false_eq_true, if_false, b2, c2, Res.bind, b3, c3, hne]
          exact NO _ rfl
      · have hc : compute E.A E.K true .div (.vec xs) (.vec ys) = none := by simp [compute]
        rw [hc]
        simp only [overload, divOp, is_object l3, beq_eq_false_iff_ne.mpr n2.symm, beq_eq_false_iff_ne.mpr n4.symm, beq_self_eq_true, if_true, divisor, object_float,
          Bool.false_and, Bool.false_eq_true, if_false]
        exact NO _ rfl

end Verif.Law
