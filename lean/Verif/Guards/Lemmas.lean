import Verif.Guards.Model
import Verif.Atom.Lemmas
import Verif.Words.Lemmas
/-! # Layout of the guards written -/
namespace Verif.Guards
open Verif.Atom Verif.Words Verif.Ops

theorem put_append (c L : Code) (N k : Nat) (w : Word) (h : c.length = N) :
    put (c ++ L) (N + k) w = c ++ put L k w := by
  subst h
  unfold put grow
  have : c.length + k + 1 - (c ++ L).length = k + 1 - L.length := by
    simp only [List.length_append]; omega
  rw [this, List.append_assoc, List.set_append_right _ _ (by omega)]
  congr 2
  omega

theorem put_head (c L : Code) (i : Nat) (w : Word) (h : i < c.length) :
    put (c ++ L) i w = c.set i w ++ L := by
  unfold put grow
  have : i + 1 - (c ++ L).length = 0 := by simp only [List.length_append]; omega
  rw [this, List.replicate_zero, List.append_nil, List.set_append_left _ _ h]

theorem putDur_append (c L : Code) (N k : Nat) (d : BitVec 64) (h : c.length = N) :
    putDur (c ++ L) (N + k) d = c ++ putDur L k d := by
  subst h
  have key : put (resize (c ++ L) (c.length + k + 3)) (c.length + k) duration
      = c ++ put (resize L (k + 3)) k duration := by
    have : resize (c ++ L) (c.length + k + 3) = c ++ resize L (k + 3) := by
      unfold resize grow
      have : c.length + k + 3 - (c ++ L).length = k + 3 - L.length := by
        simp only [List.length_append]; omega
      rw [this, List.append_assoc, List.take_append]
      rw [List.take_of_length_le (by omega)]
      congr 2
      omega
    rw [this, put_append _ _ _ _ _ rfl]
  have hlen : k + 2 < (put (resize L (k + 3)) k duration).length := by
    simp [put, grow, resize]; omega
  unfold putDur setDurationStruct setInt64
  rw [key, if_pos (by simp only [List.length_append]; omega), if_pos (by omega)]
  simp only [Option.getD_some]
  rw [Nat.add_assoc c.length k 1, List.set_append_right _ _ (by omega), Nat.add_assoc c.length (k + 1) 1,
    List.set_append_right _ _ (by omega)]
  congr 2 <;> try omega
  congr 1; omega

theorem putDur_end (L : Code) (d : BitVec 64) (k : Nat) (h : L.length = k) :
    putDur L k d = L ++ [duration, hi32 d, lo32 d] := by
  subst h
  have := putDur_append L [] L.length 0 d rfl
  rw [List.append_nil] at this
  simp only [Nat.add_zero] at this
  rw [this]; rfl

theorem get_append (c L : Code) (N k : Nat) (h : c.length = N) : get (c ++ L) (N + k) = L[k]? := by
  subst h; show (c ++ L)[c.length + k]? = _; rw [List.getElem?_append_right (by omega)]; congr 1; omega

/-- A state whose code is the object `c` of length `N` followed by what has been written. -/
def st (c L : Code) (N a b : Nat) : W := ⟨c ++ L, N + a, N + b⟩

theorem st_assign (c L : Code) (N a b l : Nat) (h : c.length = N) :
    (st c L N a b).assign l = st c (put L (a + 1) (assignmentPointer (BitVec.ofNat 8 l)
      (BitVec.ofNat 16 (N + (b + 1))))) N (a + 1) (b + 1) := by
  simp only [st, W.assign, Nat.add_assoc, put_append _ _ _ _ _ h]
theorem st_here (c L : Code) (N a b : Nat) (x : Word) (h : c.length = N) :
    (st c L N a b).here x = st c (put L b x) N a b := by
  simp only [st, W.here, put_append _ _ _ _ _ h]
theorem st_next (c L : Code) (N a b : Nat) (x : Word) (h : c.length = N) :
    (st c L N a b).next x = st c (put L (b + 1) x) N a (b + 1) := by
  simp only [st, W.next, Nat.add_assoc, put_append _ _ _ _ _ h]
theorem st_nextDur (c L : Code) (N a b : Nat) (d : BitVec 64) (h : c.length = N) :
    (st c L N a b).nextDur d = st c (putDur L (b + 1) d) N a (b + 3) := by
  simp only [st, W.nextDur, Nat.add_assoc, putDur_append _ _ _ _ _ h]
theorem st_skip (c L : Code) (N a b : Nat) : (st c L N a b).skip = st c L N a (b + 1) := rfl
theorem st_close (c L : Code) (N a b : Nat) : (st c L N a b).close = st c L N b b := rfl
theorem st_ei (c L : Code) (N a b : Nat) : (st c L N a b).ei = N + b := rfl
theorem st_start (c L : Code) (N a b i n : Nat) (h : c.length = N) (hi : i < N) :
    (st c L N a b).start i n = st (c.set i (ip (N + (a + 1)))) (put L (a + 1) (set (BitVec.ofNat 8 n)))
      N (a + 1) (a + 1 + n) := by
  have h' : (c.set i (ip (N + (a + 1)))).length = N := by simpa using h
  simp only [st, W.start, Nat.add_assoc]
  rw [put_head _ _ _ _ (by omega), put_append _ _ _ _ _ h']
theorem first_start (c : Code) (N wi b i n : Nat) (h : c.length = N) (hw : wi + 1 = N) (hi : i < N) :
    (W.mk c wi b).start i n = st (c.set i (ip N)) [set (BitVec.ofNat 8 n)] N 0 n := by
  have h' : (c.set i (ip N)).length = N := by simpa using h
  have e : put c i (ip N) = c.set i (ip N) := by
    have := put_head c [] i (ip N) (by omega); simpa using this
  have e2 := put_append (c.set i (ip N)) [] N 0 (set (BitVec.ofNat 8 n)) h'
  simp only [List.append_nil, Nat.add_zero] at e2
  simp only [st, W.start, hw, e, e2, Nat.add_zero]
  rfl

theorem put_end (M : Code) (w : Word) (k : Nat) (hk : M.length = k) : put M k w = M ++ [w] := by
  have := put_append M [] k 0 w hk
  simpa [put, grow] using this

theorem put_put (L : Code) (i k : Nat) (x y : Word) (hi : i < k) (hL : L.length ≤ k) :
    put (put L i x) k y = (grow L k).set i x ++ [y] := by
  have e : grow (put L i x) k = (grow L k).set i x := by
    apply List.ext_getElem?
    intro j
    simp only [put, grow, List.getElem?_append, List.getElem?_set, List.getElem?_replicate,
      List.length_set, List.length_append, List.length_replicate]
    split <;> split <;> (try split) <;> (try split) <;> (try split) <;> first | rfl | omega | simp_all <;> omega
  have e2 : put (put L i x) k y = put (grow (put L i x) k) k y := by
    unfold put grow
    congr 1
    rw [List.append_assoc, List.replicate_append_replicate]
    congr 2
    simp only [List.length_append, List.length_replicate, List.length_set]; omega
  rw [e2, e, put_end _ _ _ (by simp [grow]; omega)]

theorem st_guard (c L : Code) (N a b l r : Nat) (op : BitVec 16) (d : BitVec 64) (h : c.length = N)
    (hb : L.length ≤ b + 1) (ha : a < b) :
    (st c L N a b).guard l r op d = st c
      (((grow L (b + 1)).set (a + 1) (assignmentPointer (BitVec.ofNat 8 l) (BitVec.ofNat 16 (N + (b + 1))))) ++
        [operator op 2, vl r, ip (N + (b + 4)), duration, hi32 d, lo32 d]) N (a + 1) (b + 6) := by
  simp only [W.guard, st_assign _ _ _ _ _ _ h, st_here _ _ _ _ _ _ h, st_next _ _ _ _ _ _ h,
    st_nextDur _ _ _ _ _ _ h, st_ei]
  rw [put_put _ _ _ _ _ (by omega) hb]
  generalize hL : (grow L (b + 1)).set (a + 1) _ = L'
  have hl : L'.length = b + 1 := by rw [← hL]; simp [grow]; omega
  rw [put_end (L' ++ _) _ _ (by simp [hl]), put_end _ _ _ (by simp [hl]), putDur_end _ _ _ (by simp [hl])]
  simp [Nat.add_assoc]

end Verif.Guards
