import Verif.Usr.Eval
/-!
# Expressions over vectors: what is claimed
-/
namespace Verif.Usr
open Verif.Atom Verif.Words

/-- C152 in part: without sums, differences, distances and quotients of quaternions, and with room for the
values of all operators in the value array, as it is when first extended.  What is missing:
quaternions, where it fails, and longer values, where it may be undefined. -/
theorem C152_vectors_partial (E : Env) (O : Opc) (C V : Code) (n p : Nat) (v : Val) (hK : E.K.apart) (hS : E.standard)
    (hp : (C[p]?).map getDescriptor = some 0xC5) (hC : ∀ w ∈ C, getDescriptor w ≠ 0x89) (hv : valAt E O false C n p = some v)
    (h1 : V.length + costAt E O C n p ≤ E.grow V.length) (h2 : V.length + costAt E O C n p ≤ 4096) :
    ∀ M ≥ n + 3, ∃ m, eval E O M ⟨.code, p⟩ ⟨C, V, V.length, 0⟩ = .ok m ∧ Left E.K m p v ∧
      (∀ i : Nat, (C[i]?).map getDescriptor ≠ some 0xC5 → m.code[i]? = C[i]?) ∧ ∃ W, m.vals = V ++ W := by
  intro M hM
  have hop : isOp C p := by
    obtain ⟨w, h3, h4⟩ := Option.map_eq_some_iff.mp hp
    exact ⟨w, h3, by rw [← getDescriptor_toNat, h4]; rfl⟩
  have hi : Inv E O C ⟨C, V, V.length, 0⟩ := fun i => .inl rfl
  have hr : Room E (costAt E O C n p + 0) ⟨C, V, V.length, 0⟩ := by
    refine ⟨by simpa using h2, .inr ⟨rfl, by simpa using h1, fun i w hw e => ?_⟩⟩
    refine hC w (List.mem_of_getElem? hw) (desc_is ?_)
    rw [e]; rfl
  obtain ⟨m, e1, e2, e3, _, _, e4⟩ := eval_op hK hS n (M := M) hv hop hi (fun h => h rfl) hr hM
  refine ⟨m, e1, ?_, fun i h => ?_, e4⟩
  · rcases e2 p with h | ⟨_, n', v', h3, h4⟩
    · exact absurd h e3
    · rw [valAt_det hv h3]; exact h4
  · rcases e2 i with h' | ⟨⟨w, h3, h4⟩, _⟩
    · exact h'
    · exact absurd (by rw [h3, Option.map_some, desc_is (d := 0xC5) (by rw [h4]; rfl)]) h

/-! ## Examples -/

/-- An arithmetic on the patterns. -/
def tA : Arith :=
  ⟨(· + ·), (· - ·), (· * ·), fun a b => BitVec.ofNat 32 (a.toNat / b.toNat), fun a => 0 - a, id, id, id, (· == 0), fun a => a.toNat ≥ 2 ^ 31⟩
def tK : Classes := ⟨0x21, 0x22, 0x23, 0x24⟩
def tStd (op : Op) (a b : Word) : Option Word := (numbers tA op (asFloat a) (asFloat b)).map float
/-- A variable bound to a vector of dimension 62. -/
def tE : Env := ⟨tA, tK, (· * 2), fun _ => some (object 0x23 1 :: iPointer 2 :: set 62 :: List.replicate 62 1), tStd⟩
def tO : Opc := ⟨0x11, 0x12, 0x13, 0x14, 0x15⟩

theorem tE_standard : tE.standard := fun op wl wr a b x h1 h2 h3 => by
  have h4 : numbers tA op a b = some x := h3
  have h5 : tE.std op wl wr = (numbers tA op (asFloat wl) (asFloat wr)).map float := rfl
  rw [h5, (num_some h1).2.1, (num_some h2).2.1, h4, Option.map_some]

theorem tE_apart : tE.K.apart := by
  have e : tE.K = tK := rfl
  rw [e]
  refine ⟨by decide, fun k hk => ?_⟩
  simp only [List.mem_cons, List.not_mem_nil, or_false] at hk
  rcases hk with rfl | rfl | rfl | rfl <;> decide

/-- The sum of two quaternions. -/
def quatSum : Code := [operator 0x11 2, iPointer 3, iPointer 8, object 0x24 4, 1, 2, 3, 4, object 0x24 4, 5, 6, 7, 8]

/-- `(a + a) + a` for a vector of dimension 62. -/
def longSum : Code := [operator 0x11 2, iPointer 3, vlPointer 0, operator 0x11 2, vlPointer 0, vlPointer 0]

set_option maxRecDepth 100000 in
theorem quatSum_fails : ∀ M, eval tE tO (M + 3) ⟨.code, 0⟩ ⟨quatSum, List.replicate 128 0, 128, 0⟩ = .fail := fun _ => rfl

set_option maxRecDepth 100000 in
theorem longSum_ub : ∀ M, eval tE tO (M + 3) ⟨.code, 0⟩ ⟨longSum, List.replicate 128 0, 128, 0⟩ = .ub := fun _ => rfl

theorem quatSum_val : valAt tE tO true quatSum 2 0 = some (.obj 0x24 [12, 16, 20, 24]) := by decide +kernel

theorem longSum_val : valAt tE tO false longSum 3 0 = some (.vec (List.replicate 62 6)) := by decide +kernel

/-- C152 fails: the sum of two quaternions is computed, overwritten with `nil`, and fails; the sum of
three vectors of dimension 62 reads, while the second sum is written, the first one where it was
before the value array was moved. -/
theorem C152_vectors_violated : ¬ C152_full ∧
    (valAt tE tO true quatSum 2 0 = some (.obj tE.K.qt [12, 16, 20, 24]) ∧
      ∀ M, eval tE tO (M + 3) ⟨.code, 0⟩ ⟨quatSum, List.replicate 128 0, 128, 0⟩ = .fail) ∧
    (valAt tE tO false longSum 3 0 = some (.vec (List.replicate 62 6)) ∧
      ∀ M, eval tE tO (M + 3) ⟨.code, 0⟩ ⟨longSum, List.replicate 128 0, 128, 0⟩ = .ub) := by
  refine ⟨fun h => ?_, ⟨quatSum_val, quatSum_fails⟩, longSum_val, longSum_ub⟩
  obtain ⟨N, hN⟩ := h tE tO quatSum (List.replicate 128 0) 2 0 _ tE_apart tE_standard (fun k hk => by show k < k * 2; omega) (by simp) (by decide) quatSum_val
  obtain ⟨m, e, _⟩ := hN (N + 3) (by omega)
  have := quatSum_fails N
  rw [List.length_replicate, this] at e
  cases e

/-- `2 * (a - b) + c` for vectors in the code, and the distance of two vectors in the plane. -/
def sample : Code :=
  [operator 0x11 2, iPointer 3, iPointer 20, operator 0x13 2, 1, iPointer 6, operator 0x12 2, iPointer 12, iPointer 16,
   operator 0x15 2, iPointer 24, iPointer 27,
   object 0x21 3, 9, 8, 7, object 0x21 3, 1, 2, 3, object 0x21 3, 4, 4, 4, object 0x22 2, 5, 5, object 0x22 2, 3, 4]

/-- The hypotheses of `C152_vectors_partial` are met by expressions with three operators. -/
theorem C152_nonvacuous : tE.K.apart ∧ tE.standard ∧ (∀ w ∈ sample, getDescriptor w ≠ 0x89) ∧
    (sample[0]?).map getDescriptor = some 0xC5 ∧ valAt tE tO false sample 4 0 = some (.obj tE.K.v3 [40, 32, 24]) ∧
    costAt tE tO sample 4 0 = 12 ∧
    (sample[9]?).map getDescriptor = some 0xC5 ∧ valAt tE tO false sample 2 9 = some (.num 20) := by
  refine ⟨tE_apart, tE_standard, fun w hw => ?_, ?_, ?_, ?_, ?_, ?_⟩
  · have : sample.all fun w => getDescriptor w ≠ 0x89 := by decide +kernel
    simpa using List.all_eq_true.mp this w hw
  all_goals decide +kernel

end Verif.Usr
