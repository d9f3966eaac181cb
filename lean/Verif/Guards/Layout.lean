import Verif.Guards.Lemmas
/-! # The code written by each guard builder, and how it evaluates -/
set_option linter.unusedSimpArgs false
set_option linter.unusedVariables false
namespace Verif.Guards
open Verif.Atom Verif.Words Verif.Ops

def asg (l x : Nat) : Word := assignmentPointer (BitVec.ofNat 8 l) (BitVec.ofNat 16 x)
/-- The expression `(op r d)` written at `x` by `write_guard`. -/
def seg (x : Nat) (op : BitVec 16) (r : Nat) (d : BitVec 64) : Code :=
  [operator op 2, vl r, ip (x + 3), duration, hi32 d, lo32 d]

def L_timing (O : Opc) (V : Vars) (p : BitVec 64) (N : Nat) : Code :=
  [set 2, asg V.t2 (N + 3), asg V.t3 (N + 9)] ++ seg (N + 3) O.add V.t0 p ++ seg (N + 9) O.add V.t1 p
    ++ [set 2, asg V.t0 (N + 18), asg V.t1 (N + 24)] ++ seg (N + 18) O.sub V.t2 p ++
    seg (N + 24) O.sub V.t3 p

theorem layout_timing (O : Opc) (V : Vars) (p : BitVec 64) (c : Code) (N wi : Nat) (h : c.length = N)
    (hw : wi + 1 = N) (h4 : 4 < N) :
    buildW O V ⟨c, wi, 0⟩ (.timing p) = st ((c.set 3 (ip N)).set 4 (ip (N + 15)))
      (L_timing O V p N) N 29 29 := by
  simp only [buildW, W.fwdTimings, W.bwdTimings, fwdGuards, bwdGuards]
  rw [first_start _ N _ _ _ _ h hw (by omega), st_guard _ _ _ _ _ _ _ _ _ (by simpa using h) (by simp [grow, put, putDur_end]) (by omega),
    st_guard _ _ _ _ _ _ _ _ _ (by simpa using h) (by simp [grow, put, putDur_end]) (by omega)]
  rw [st_close, st_start _ _ _ _ _ _ _ (by simpa using h) (by omega)]
  rw [st_guard _ _ _ _ _ _ _ _ _ (by simpa using h) (by simp [grow, put, putDur_end]) (by omega),
    st_guard _ _ _ _ _ _ _ _ _ (by simpa using h) (by simp [grow, put, putDur_end]) (by omega)]
  rw [st_close]
  simp [L_timing, grow, put, seg, asg, putDur_end, Nat.add_assoc]

def L_noArg (O : Opc) (V : Vars) (p off cd : BitVec 64) (N : Nat) : Code :=
  [set 2, asg V.t2 (N + 3), asg V.t3 (N + 9)] ++ seg (N + 3) O.add V.t0 p ++ seg (N + 9) O.add V.t1 p
    ++ [set 4, asg V.t0 (N + 20), asg V.t1 (N + 26), asg V.s0 (N + 32), asg V.s1 (N + 38)] ++
    seg (N + 20) O.sub V.t2 p ++ seg (N + 26) O.sub V.t3 p ++ seg (N + 32) O.sub V.t2 off ++
    seg (N + 38) O.sub V.t3 p

theorem layout_noArg (O : Opc) (V : Vars) (p off cd : BitVec 64) (c : Code) (N wi : Nat) (h : c.length = N)
    (hw : wi + 1 = N) (h4 : 4 < N) :
    buildW O V ⟨c, wi, 0⟩ (.noArg p off cd) = st ((c.set 3 (ip N)).set 4 (ip (N + 15)))
      (L_noArg O V p off cd N) N 43 43 := by
  simp only [buildW, W.fwdTimings, W.bwdTimings, fwdGuards, bwdGuards]
  rw [first_start _ N _ _ _ _ h hw (by omega), st_guard _ _ _ _ _ _ _ _ _ (by simpa using h) (by simp [grow, put, putDur_end]) (by omega),
    st_guard _ _ _ _ _ _ _ _ _ (by simpa using h) (by simp [grow, put, putDur_end]) (by omega)]
  rw [st_close, st_start _ _ _ _ _ _ _ (by simpa using h) (by omega)]
  rw [st_guard _ _ _ _ _ _ _ _ _ (by simpa using h) (by simp [grow, put, putDur_end]) (by omega),
    st_guard _ _ _ _ _ _ _ _ _ (by simpa using h) (by simp [grow, put, putDur_end]) (by omega)]
  rw [st_guard _ _ _ _ _ _ _ _ _ (by simpa using h) (by simp [grow, put, putDur_end]) (by omega),
    st_guard _ _ _ _ _ _ _ _ _ (by simpa using h) (by simp [grow, put, putDur_end]) (by omega)]
  rw [st_close]
  simp [L_noArg, grow, put, seg, asg, putDur_end, Nat.add_assoc]

def L_cmd (O : Opc) (V : Vars) (m : Bool) (p off : BitVec 64) (N : Nat) : Code :=
  [set 3, asg V.t2 (N + 4), asg V.t3 (N + 10), asg V.q1 (N + 16)] ++ seg (N + 4) O.add V.t0 p ++
    seg (N + 10) O.add V.t1 p ++ [operator (fwdOp O m) 2, vl V.q0, vl V.s, Atom.default] ++
    [set 5, asg V.t0 (N + 26), asg V.t1 (N + 32), asg V.s0 (N + 38), asg V.s1 (N + 44), asg V.s (N + 50)] ++
    seg (N + 26) O.sub V.t2 p ++ seg (N + 32) O.sub V.t3 p ++ seg (N + 38) O.sub V.t2 off ++
    seg (N + 44) O.sub V.t3 p ++ [operator (bwdOp O m) 2, vl V.q1, vl V.q0]

theorem layout_cmd (O : Opc) (V : Vars) (m : Bool) (p off : BitVec 64) (c : Code) (N wi : Nat) (h : c.length = N)
    (hw : wi + 1 = N) (h4 : 4 < N) :
    buildW O V ⟨c, wi, 0⟩ (.cmd m p off) = st ((c.set 3 (ip N)).set 4 (ip (N + 20)))
      (L_cmd O V m p off N) N 53 53 := by
  simp only [buildW, W.fwdTimings, W.bwdTimings, fwdGuards, bwdGuards]
  rw [first_start _ N _ _ _ _ h hw (by omega), st_guard _ _ _ _ _ _ _ _ _ (by simpa using h) (by simp [grow, put, putDur_end]) (by omega),
    st_guard _ _ _ _ _ _ _ _ _ (by simpa using h) (by simp [grow, put, putDur_end]) (by omega)]
  rw [st_assign _ _ _ _ _ _ (by simpa using h), st_here _ _ _ _ _ _ (by simpa using h), st_next _ _ _ _ _ _ (by simpa using h), st_next _ _ _ _ _ _ (by simpa using h), st_skip]
  rw [st_close, st_start _ _ _ _ _ _ _ (by simpa using h) (by omega)]
  rw [st_guard _ _ _ _ _ _ _ _ _ (by simpa using h) (by simp [grow, put, putDur_end]) (by omega),
    st_guard _ _ _ _ _ _ _ _ _ (by simpa using h) (by simp [grow, put, putDur_end]) (by omega)]
  rw [st_guard _ _ _ _ _ _ _ _ _ (by simpa using h) (by simp [grow, put, putDur_end]) (by omega),
    st_guard _ _ _ _ _ _ _ _ _ (by simpa using h) (by simp [grow, put, putDur_end]) (by omega)]
  rw [st_assign _ _ _ _ _ _ (by simpa using h), st_here _ _ _ _ _ _ (by simpa using h), st_next _ _ _ _ _ _ (by simpa using h), st_next _ _ _ _ _ _ (by simpa using h), st_skip, st_close]
  simp [L_cmd, grow, put, seg, asg, putDur_end, Nat.add_assoc]

def L_const (O : Opc) (V : Vars) (m : Bool) (p off : BitVec 64) (k : BitVec 32) (N : Nat) : Code :=
  [set 3, asg V.t2 (N + 4), asg V.t3 (N + 10), asg V.q1 (N + 16)] ++ seg (N + 4) O.add V.t0 p ++
    seg (N + 10) O.add V.t1 p ++ [operator (fwdOp O m) 2, vl V.q0, float k, Atom.default] ++
    [set 5, asg V.t0 (N + 26), asg V.t1 (N + 32), asg V.t2 (N + 38), asg V.t3 (N + 44), asg V.q0 (N + 50)] ++
    seg (N + 26) O.sub V.t2 p ++ seg (N + 32) O.sub V.t3 p ++ seg (N + 38) O.sub V.t2 off ++
    seg (N + 44) O.sub V.t3 p ++ [operator (bwdOp O m) 2, vl V.q1, float k]

theorem layout_const (O : Opc) (V : Vars) (m : Bool) (p off : BitVec 64) (k : BitVec 32) (c : Code) (N wi : Nat) (h : c.length = N)
    (hw : wi + 1 = N) (h4 : 4 < N) :
    buildW O V ⟨c, wi, 0⟩ (.const m p off k) = st ((c.set 3 (ip N)).set 4 (ip (N + 20)))
      (L_const O V m p off k N) N 53 53 := by
  simp only [buildW, W.fwdTimings, W.bwdTimings, fwdGuards, bwdGuards]
  rw [first_start _ N _ _ _ _ h hw (by omega), st_guard _ _ _ _ _ _ _ _ _ (by simpa using h) (by simp [grow, put, putDur_end]) (by omega),
    st_guard _ _ _ _ _ _ _ _ _ (by simpa using h) (by simp [grow, put, putDur_end]) (by omega)]
  rw [st_assign _ _ _ _ _ _ (by simpa using h), st_here _ _ _ _ _ _ (by simpa using h), st_next _ _ _ _ _ _ (by simpa using h), st_next _ _ _ _ _ _ (by simpa using h), st_skip]
  rw [st_close, st_start _ _ _ _ _ _ _ (by simpa using h) (by omega)]
  rw [st_guard _ _ _ _ _ _ _ _ _ (by simpa using h) (by simp [grow, put, putDur_end]) (by omega),
    st_guard _ _ _ _ _ _ _ _ _ (by simpa using h) (by simp [grow, put, putDur_end]) (by omega)]
  rw [st_guard _ _ _ _ _ _ _ _ _ (by simpa using h) (by simp [grow, put, putDur_end]) (by omega),
    st_guard _ _ _ _ _ _ _ _ _ (by simpa using h) (by simp [grow, put, putDur_end]) (by omega)]
  rw [st_assign _ _ _ _ _ _ (by simpa using h), st_here _ _ _ _ _ _ (by simpa using h), st_next _ _ _ _ _ _ (by simpa using h), st_next _ _ _ _ _ _ (by simpa using h), st_skip, st_close]
  simp [L_const, grow, put, seg, asg, putDur_end, Nat.add_assoc]

def L_speed (O : Opc) (V : Vars) (p off : BitVec 64) (N : Nat) : Code :=
  [set 3, asg V.t2 (N + 4), asg V.t3 (N + 10), asg V.q1 (N + 16)] ++ seg (N + 4) O.add V.t0 p ++
    seg (N + 10) O.add V.t1 p ++ [operator O.add 2, vl V.q0, ip (N + 19), operator O.mul 2, vl V.s,
      ip (N + 22), duration, hi32 p, lo32 p] ++
    [set 5, asg V.t0 (N + 31), asg V.t1 (N + 37), asg V.s0 (N + 43), asg V.s1 (N + 49), asg V.s (N + 55)] ++
    seg (N + 31) O.sub V.t2 p ++ seg (N + 37) O.sub V.t3 p ++ seg (N + 43) O.sub V.t2 off ++
    seg (N + 49) O.sub V.t3 p ++ [operator O.div 2, ip (N + 58), ip (N + 61), operator O.sub 2, vl V.q1,
      vl V.q0, duration, hi32 p, lo32 p]

theorem layout_speed (O : Opc) (V : Vars) (p off : BitVec 64) (c : Code) (N wi : Nat) (h : c.length = N)
    (hw : wi + 1 = N) (h4 : 4 < N) :
    buildW O V ⟨c, wi, 0⟩ (.speed p off) = st ((c.set 3 (ip N)).set 4 (ip (N + 25)))
      (L_speed O V p off N) N 63 63 := by
  simp only [buildW, W.fwdTimings, W.bwdTimings, fwdGuards, bwdGuards]
  rw [first_start _ N _ _ _ _ h hw (by omega), st_guard _ _ _ _ _ _ _ _ _ (by simpa using h) (by simp [grow, put, putDur_end]) (by omega),
    st_guard _ _ _ _ _ _ _ _ _ (by simpa using h) (by simp [grow, put, putDur_end]) (by omega)]
  rw [st_assign _ _ _ _ _ _ (by simpa using h), st_here _ _ _ _ _ _ (by simpa using h), st_next _ _ _ _ _ _ (by simpa using h)]
  simp only [st_ei]
  rw [st_next _ _ _ _ _ _ (by simpa using h), st_next _ _ _ _ _ _ (by simpa using h), st_next _ _ _ _ _ _ (by simpa using h)]
  simp only [st_ei]
  rw [st_next _ _ _ _ _ _ (by simpa using h), st_nextDur _ _ _ _ _ _ (by simpa using h)]
  rw [st_close, st_start _ _ _ _ _ _ _ (by simpa using h) (by omega)]
  rw [st_guard _ _ _ _ _ _ _ _ _ (by simpa using h) (by simp [grow, put, putDur_end]) (by omega),
    st_guard _ _ _ _ _ _ _ _ _ (by simpa using h) (by simp [grow, put, putDur_end]) (by omega)]
  rw [st_guard _ _ _ _ _ _ _ _ _ (by simpa using h) (by simp [grow, put, putDur_end]) (by omega),
    st_guard _ _ _ _ _ _ _ _ _ (by simpa using h) (by simp [grow, put, putDur_end]) (by omega)]
  rw [st_assign _ _ _ _ _ _ (by simpa using h), st_here _ _ _ _ _ _ (by simpa using h)]
  simp only [st_ei]
  rw [st_next _ _ _ _ _ _ (by simpa using h)]
  simp only [st_ei]
  rw [st_next _ _ _ _ _ _ (by simpa using h), st_next _ _ _ _ _ _ (by simpa using h), st_next _ _ _ _ _ _ (by simpa using h), st_next _ _ _ _ _ _ (by simpa using h), st_nextDur _ _ _ _ _ _ (by simpa using h), st_close]
  simp [L_speed, grow, put, seg, asg, putDur_end, Nat.add_assoc]

/-! ## Evaluation -/

theorem desc_asg (l x : Nat) : getDescriptor (asg l x) = 0x8D#8 := by
  apply BitVec.eq_of_toNat_eq
  rw [getDescriptor_toNat, asg, assignment_toNat]
  simp; omega
theorem index_asg (l x : Nat) (hx : x < 4096) : (asIndex (asg l x)).toNat = x := by
  rw [asIndex_toNat, asg, assignment_toNat]; simp; omega
theorem var_asg (l x : Nat) (hl : l < 256) : (asAssignmentIndex (asg l x)).toNat = l := by
  rw [asAssignmentIndex_toNat, asg, assignment_toNat]; simp; omega

theorem vl_toNat (r : Nat) : (vl r).toNat = 0x86 * 16777216 + r % 4096 := by
  rw [vl, vlPointer, ptr_toNat, show Ty.num .VL_PTR = 0x86 from rfl, BitVec.toNat_ofNat]; omega
theorem ip_toNat (r : Nat) : (ip r).toNat = 0x84 * 16777216 + r % 4096 := by
  rw [ip, iPointer, ptr_toNat, show Ty.num .I_PTR = 0x84 from rfl, BitVec.toNat_ofNat]; omega
theorem op_toNat (op : BitVec 16) : (operator op 2).toNat = 0xC5 * 16777216 + op.toNat % 4096 * 256 + 2 := by
  rw [operator, struct_toNat, show Ty.num .OPERATOR = 0xC5 from rfl]; rfl
theorem dur_toNat : duration.toNat = 0xD0 * 16777216 := by decide

theorem desc_of (w : Word) (t : BitVec 8) (h : w.toNat / 16777216 = t.toNat) : getDescriptor w = t := by
  apply BitVec.eq_of_toNat_eq; rw [getDescriptor_toNat, h]
theorem notFloat_of (w : Word) (h : 2147483648 ≤ w.toNat) : isFloat w = false := by
  rw [isFloat_eq]; simp; omega

variable (E : Env) (O : Opc) (dec : Dec) (C : Code) (e : Bind)

theorem eval_vl (n i r : Nat) (h : get C i = some (vl r)) (hr : r < 256) :
    eval E O dec C e (n + 1) i = e r := by
  have hw := vl_toNat r
  have hd : getDescriptor (vl r) = 0x86#8 := desc_of _ _ (by rw [hw]; simp; omega)
  have hi : (asIndex (vl r)).toNat = r := by rw [asIndex_toNat, hw]; omega
  simp [eval, h, hd, hi, notFloat_of _ (show 2147483648 ≤ (vl r).toNat by omega)]
theorem eval_ip (n i x : Nat) (h : get C i = some (ip x)) (hx : x < 4096) :
    eval E O dec C e (n + 1) i = eval E O dec C e n x := by
  have hw := ip_toNat x
  have hd : getDescriptor (ip x) = 0x84#8 := desc_of _ _ (by rw [hw]; simp; omega)
  have hi : (asIndex (ip x)).toNat = x := by rw [asIndex_toNat, hw]; omega
  simp [eval, h, hd, hi, notFloat_of _ (show 2147483648 ≤ (ip x).toNat by omega)]
theorem eval_op (n i : Nat) (op : BitVec 16) (h : get C i = some (operator op 2)) (ho : op.toNat < 4096) :
    eval E O dec C e (n + 1) i = (match eval E O dec C e n (i + 1), eval E O dec C e n (i + 2) with
          | some x, some y => call E O op x y
          | _, _ => none) := by
  have hw := op_toNat op
  have hd : getDescriptor (operator op 2) = 0xC5#8 := desc_of _ _ (by rw [hw]; simp; omega)
  have hc : getAtomCount (operator op 2) = 2#8 := by
    exact count_eq .OPERATOR _ 2#8 (op.toNat % 4096) (by decide) hw (by omega)
  have hoo : asOpcode (operator op 2) = op := by
    apply BitVec.eq_of_toNat_eq; rw [asOpcode_toNat, hw]; omega
  rw [eval, h]
  simp only [hd, hc, hoo, notFloat_of _ (show 2147483648 ≤ (operator op 2).toNat by omega)]
  rw [if_neg (by simp), if_neg (by decide), if_neg (by decide), if_pos (by decide), if_pos (by decide)]
  rfl
theorem eval_dur (n i : Nat) (d : BitVec 64) (h : get C i = some duration)
    (h1 : get C (i + 1) = some (hi32 d)) (h2 : get C (i + 2) = some (lo32 d)) :
    eval E O dec C e (n + 1) i = some (.dur d.toInt) := by
  have hd : getDescriptor duration = 0xD0#8 := by decide
  have hf : isFloat duration = false := by decide
  have hg : getInt64 C (i + 1) = some d := by
    simp only [getInt64, h1, h2, Option.bind_eq_bind, Option.bind_some]
    congr 1
    exact join_split d
  simp [eval, h, hd, hf, hg]
theorem eval_float (n i : Nat) (k : BitVec 32) (h : get C i = some (float k)) :
    eval E O dec C e (n + 1) i = some (.num (dec (float k))) := by
  have : isFloat (float k) = true := by rw [isFloat_eq, float_toNat]; simp; omega
  simp [eval, h, this]

/-- The expression of a timing guard. -/
theorem eval_seg (n x r : Nat) (op : BitVec 16) (d : BitVec 64) (v w : Ops.Val)
    (h : ∀ j < 6, get C (x + j) = (seg x op r d)[j]?) (hx : x + 3 < 4096) (hr : r < 256)
    (ho : op.toNat < 4096) (hv : e r = some v) (hw : call E O op v (.dur d.toInt) = some w) :
    eval E O dec C e (n + 3) x = some w := by
  rw [eval_op E O dec C e _ _ op (by simpa [seg] using h 0 (by omega)) ho,
    eval_vl E O dec C e _ _ r (by simpa [seg] using h 1 (by omega)) hr,
    eval_ip E O dec C e _ _ (x + 3) (by simpa [seg] using h 2 (by omega)) hx,
    eval_dur E O dec C e _ _ d (by simpa [seg] using h 3 (by omega)) (by simpa [seg] using h 4 (by omega))
      (by simpa [seg] using h 5 (by omega)), hv]
  exact hw

theorem assign_ok (i l x : Nat) (v : Ops.Val) (h : get C i = some (asg l x)) (hl : l < 256) (hx : x < 4096)
    (hv : eval E O dec C e 65536 x = some v) : assign E O dec C e i = some (e.set l v) := by
  simp [assign, h, desc_asg, index_asg l x hx, var_asg l x hl, hv]

theorem evalFrom_cons (n i l x : Nat) (v : Ops.Val) (h : get C i = some (asg l x)) (hl : l < 256)
    (hx : x < 4096) (hv : eval E O dec C e 65536 x = some v) :
    evalFrom E O dec C (n + 1) i e = evalFrom E O dec C n (i + 1) (e.set l v) := by
  simp [evalFrom, assign_ok E O dec C e i l x v h hl hx hv]

theorem evalGuards_of (i x n : Nat) (h : get C i = some (ip x)) (hx : x < 4096)
    (hs : get C x = some (set (BitVec.ofNat 8 n))) (hn : n < 256) :
    evalGuards E O dec C i e = evalFrom E O dec C n (x + 1) e := by
  have hi : (asIndex (ip x)).toNat = x := by rw [asIndex_toNat, ip_toNat]; omega
  have hw : (set (BitVec.ofNat 8 n)).toNat = 0xC1 * 16777216 + n := by
    rw [set_toNat]; simp; omega
  have hd : getDescriptor (set (BitVec.ofNat 8 n)) = 0xC1#8 := desc_of _ _ (by rw [hw]; simp; omega)
  have hc : (getAtomCount (set (BitVec.ofNat 8 n))).toNat = n := by
    rw [countN_eq 0xC1 _ (BitVec.ofNat 8 n) (by simp) (by rw [hw]; simp; omega)]
    simp; omega
  simp [evalGuards, h, hi, hs, hc]

theorem step_time (n i l x r : Nat) (op : BitVec 16) (d : BitVec 64) (v w : Ops.Val)
    (h : get C i = some (asg l x)) (hs : ∀ j < 6, get C (x + j) = (seg x op r d)[j]?)
    (hl : l < 256) (hr : r < 256) (hx : x + 3 < 4096) (ho : op.toNat < 4096) (hv : e r = some v)
    (hw : call E O op v (.dur d.toInt) = some w) :
    evalFrom E O dec C (n + 1) i e = evalFrom E O dec C n (i + 1) (e.set l w) :=
  evalFrom_cons E O dec C e n i l x w h hl (by omega) (eval_seg E O dec C e 65533 x r op d v w hs hx hr ho hv hw)

/-- The conditions under which code can be written at all: opcodes of 12 bits and distinct, variables of
8 bits and distinct, the guards within the 4096 addressable words. -/
structure Ok (O : Opc) (V : Vars) (c : Code) (wi : Nat) : Prop where
  len : c.length = wi + 1
  room : 4 < wi ∧ wi + 70 ≤ 4096
  opcodes : O.add.toNat < 4096 ∧ O.sub.toNat < 4096 ∧ O.mul.toNat < 4096 ∧ O.div.toNat < 4096
  distinct : [O.add, O.sub, O.mul, O.div].Nodup
  vars : V.q0 < 256 ∧ V.t0 < 256 ∧ V.t1 < 256 ∧ V.q1 < 256 ∧ V.t2 < 256 ∧ V.t3 < 256 ∧ V.s < 256 ∧
    V.s0 < 256 ∧ V.s1 < 256
  nodup : [V.q0, V.t0, V.t1, V.q1, V.t2, V.t3, V.s, V.s0, V.s1].Nodup

theorem call_add (x y : Ops.Val) : call E O O.add x y = value (add E x y) := by simp [call]
theorem call_sub (h : [O.add, O.sub, O.mul, O.div].Nodup) (x y : Ops.Val) :
    call E O O.sub x y = value (sub E x y) := by
  have : O.sub ≠ O.add := by intro h'; simp [h'] at h
  simp [call, this]
theorem call_mul (h : [O.add, O.sub, O.mul, O.div].Nodup) (x y : Ops.Val) :
    call E O O.mul x y = value (mul E x y) := by
  have : O.mul ≠ O.add := by intro h'; simp [h'] at h
  have : O.mul ≠ O.sub := by intro h'; simp [h'] at h
  simp [call, *]
theorem call_div (h : [O.add, O.sub, O.mul, O.div].Nodup) (x y : Ops.Val) :
    call E O O.div x y = value (div E x y) := by
  have : O.div ≠ O.add := by intro h'; simp [h'] at h
  have : O.div ≠ O.sub := by intro h'; simp [h'] at h
  have : O.div ≠ O.mul := by intro h'; simp [h'] at h
  simp [call, *]

theorem call_add_time (a : Int) (d : BitVec 64) (h : fits (a + d.toInt) = true) :
    call E O O.add (.time a) (.dur d.toInt) = some (.time (a + d.toInt)) := by
  simp [call_add, add, Ops.time, h, value]
theorem call_sub_time (hn : [O.add, O.sub, O.mul, O.div].Nodup) (a : Int) (d : BitVec 64)
    (h : fits (a - d.toInt) = true) :
    call E O O.sub (.time a) (.dur d.toInt) = some (.time (a - d.toInt)) := by
  simp [call_sub E O hn, sub, Ops.time, h, value]

theorem set_ne (x y : Nat) (v : Ops.Val) (h : y ≠ x) : (e.set x v) y = e y := by simp [Bind.set, h]
theorem set_eq (x : Nat) (v : Ops.Val) : (e.set x v) x = some v := by simp [Bind.set]

/-- Reads inside the code written. -/
macro "segs" hc:term : tactic => `(tactic| (
  intro j hj
  rw [Nat.add_assoc, $hc:term]
  rcases j with _ | _ | _ | _ | _ | _ | j
  iterate 6 (focus (simp [L_timing, L_noArg, L_cmd, L_const, L_speed, seg]; done))
  · exact absurd hj (by clear * -; omega)))

/-- The variables as a list; distinct entries are distinct variables. -/
def Vars.list (V : Vars) : List Nat := [V.q0, V.t0, V.t1, V.q1, V.t2, V.t3, V.s, V.s0, V.s1]
theorem ne_of (V : Vars) (h : V.list.Nodup) (i j : Fin 9) (hij : i ≠ j) :
    V.list[i.val]'(i.isLt) ≠ V.list[j.val]'(j.isLt) := by
  intro h'
  exact hij (Fin.ext ((List.getElem_inj h).1 h'))

/-- The headers of the guard sets point to the sets. -/
theorem headers (c L : Code) (N x : Nat) (h : c.length = N) (h4 : 4 < N) :
    ((c.set 3 (ip N)).set 4 (ip (N + x))).length = N ∧
    get ((c.set 3 (ip N)).set 4 (ip (N + x)) ++ L) fwdGuards = some (ip (N + 0)) ∧
    get ((c.set 3 (ip N)).set 4 (ip (N + x)) ++ L) bwdGuards = some (ip (N + x)) := by
  have hc : ((c.set 3 (ip N)).set 4 (ip (N + x))).length = N := by simpa using h
  refine ⟨hc, ?_, ?_⟩ <;> simp only [Words.get, fwdGuards, bwdGuards] <;>
    rw [List.getElem?_append_left (by omega)] <;> simp [List.getElem?_set] <;> omega

theorem timing_fwd (V : Vars) (c : Code) (wi : Nat) (p : BitVec 64) (a b : Int)
    (K : Ok O V c wi) (ha : e V.t0 = some (.time a)) (hb : e V.t1 = some (.time b))
    (fa : fits (a + p.toInt) = true) (fb : fits (b + p.toInt) = true) :
    evalGuards E O dec (build O V (.timing p) c wi).1 fwdGuards e =
      some ((e.set V.t2 (.time (a + p.toInt))).set V.t3 (.time (b + p.toInt))) := by
  obtain ⟨len, room, hop, hd, hv, hn⟩ := K
  obtain ⟨N, hN⟩ : ∃ N, wi + 1 = N := ⟨_, rfl⟩
  rw [hN] at len
  simp only [build]
  rw [layout_timing O V p c N wi len hN (by omega)]
  obtain ⟨hc, h3, h4⟩ := headers c (L_timing O V p N) N 15 len (by omega)
  simp only [st]
  generalize (c.set 3 (ip N)).set 4 (ip (N + 15)) = c' at *
  have R (i : Nat) := get_append c' (L_timing O V p N) N i hc
  generalize hC : c' ++ L_timing O V p N = C at *
  rw [evalGuards_of E O dec C e _ (N + 0) 2 h3 (by omega) (R 0) (by omega)]
  rw [step_time E O dec C _ _ _ V.t2 (N + 3) V.t0 O.add p _ (.time (a + p.toInt)) (R 1) (by segs R) (by omega) (by omega)
    (by omega) (by omega) ha (call_add_time E O a p fa)]
  rw [step_time E O dec C _ _ _ V.t3 (N + 9) V.t1 O.add p _ (.time (b + p.toInt)) (R 2) (by segs R) (by omega) (by omega)
    (by omega) (by omega) (by rw [set_ne _ V.t2 V.t1 _ (ne_of V hn 2 4 (by decide) : V.t1 ≠ V.t2)]; exact hb) (call_add_time E O b p fb)]
  rfl

theorem timing_bwd (V : Vars) (c : Code) (wi : Nat) (p : BitVec 64) (a b : Int)
    (K : Ok O V c wi) (ha : e V.t2 = some (.time a)) (hb : e V.t3 = some (.time b))
    (fa : fits (a - p.toInt) = true) (fb : fits (b - p.toInt) = true) :
    evalGuards E O dec (build O V (.timing p) c wi).1 bwdGuards e =
      some ((e.set V.t0 (.time (a - p.toInt))).set V.t1 (.time (b - p.toInt))) := by
  obtain ⟨len, room, hop, hd, hv, hn⟩ := K
  obtain ⟨N, hN⟩ : ∃ N, wi + 1 = N := ⟨_, rfl⟩
  rw [hN] at len
  simp only [build]
  rw [layout_timing O V p c N wi len hN (by omega)]
  obtain ⟨hc, h3, h4⟩ := headers c (L_timing O V p N) N 15 len (by omega)
  simp only [st]
  generalize (c.set 3 (ip N)).set 4 (ip (N + 15)) = c' at *
  have R (i : Nat) := get_append c' (L_timing O V p N) N i hc
  generalize hC : c' ++ L_timing O V p N = C at *
  rw [evalGuards_of E O dec C e _ (N + 15) 2 h4 (by omega) (R 15) (by omega)]
  rw [step_time E O dec C _ _ _ V.t0 (N + 18) V.t2 O.sub p _ (.time (a - p.toInt)) (R 16) (by segs R) (by omega) (by omega)
    (by omega) (by omega) ha (call_sub_time E O hd a p fa)]
  rw [step_time E O dec C _ _ _ V.t1 (N + 24) V.t3 O.sub p _ (.time (b - p.toInt)) (R 17) (by segs R) (by omega) (by omega)
    (by omega) (by omega) (by rw [set_ne _ V.t0 V.t3 _ (ne_of V hn 5 1 (by decide) : V.t3 ≠ V.t0)]; exact hb) (call_sub_time E O hd b p fb)]
  rfl

theorem noArg_fwd (V : Vars) (c : Code) (wi : Nat) (p off cd : BitVec 64) (a b : Int)
    (K : Ok O V c wi) (ha : e V.t0 = some (.time a)) (hb : e V.t1 = some (.time b))
    (fa : fits (a + p.toInt) = true) (fb : fits (b + p.toInt) = true) :
    evalGuards E O dec (build O V (.noArg p off cd) c wi).1 fwdGuards e =
      some ((e.set V.t2 (.time (a + p.toInt))).set V.t3 (.time (b + p.toInt))) := by
  obtain ⟨len, room, hop, hd, hv, hn⟩ := K
  obtain ⟨N, hN⟩ : ∃ N, wi + 1 = N := ⟨_, rfl⟩
  rw [hN] at len
  simp only [build]
  rw [layout_noArg O V p off cd c N wi len hN (by omega)]
  obtain ⟨hc, h3, h4⟩ := headers c (L_noArg O V p off cd N) N 15 len (by omega)
  simp only [st]
  generalize (c.set 3 (ip N)).set 4 (ip (N + 15)) = c' at *
  have R (i : Nat) := get_append c' (L_noArg O V p off cd N) N i hc
  generalize hC : c' ++ L_noArg O V p off cd N = C at *
  rw [evalGuards_of E O dec C e _ (N + 0) 2 h3 (by omega) (R 0) (by omega)]
  rw [step_time E O dec C _ _ _ V.t2 (N + 3) V.t0 O.add p _ (.time (a + p.toInt)) (R 1) (by segs R) (by omega) (by omega)
    (by omega) (by omega) ha (call_add_time E O a p fa)]
  rw [step_time E O dec C _ _ _ V.t3 (N + 9) V.t1 O.add p _ (.time (b + p.toInt)) (R 2) (by segs R) (by omega) (by omega)
    (by omega) (by omega) (by rw [set_ne _ V.t2 V.t1 _ (ne_of V hn 2 4 (by decide) : V.t1 ≠ V.t2)]; exact hb) (call_add_time E O b p fb)]
  rfl

theorem noArg_bwd (V : Vars) (c : Code) (wi : Nat) (p off cd : BitVec 64) (a b : Int)
    (K : Ok O V c wi) (ha : e V.t2 = some (.time a)) (hb : e V.t3 = some (.time b))
    (fa : fits (a - p.toInt) = true) (fb : fits (b - p.toInt) = true) (fo : fits (a - off.toInt) = true) :
    evalGuards E O dec (build O V (.noArg p off cd) c wi).1 bwdGuards e =
      some ((((e.set V.t0 (.time (a - p.toInt))).set V.t1 (.time (b - p.toInt))).set V.s0 (.time (a - off.toInt))).set V.s1 (.time (b - p.toInt))) := by
  obtain ⟨len, room, hop, hd, hv, hn⟩ := K
  obtain ⟨N, hN⟩ : ∃ N, wi + 1 = N := ⟨_, rfl⟩
  rw [hN] at len
  simp only [build]
  rw [layout_noArg O V p off cd c N wi len hN (by omega)]
  obtain ⟨hc, h3, h4⟩ := headers c (L_noArg O V p off cd N) N 15 len (by omega)
  simp only [st]
  generalize (c.set 3 (ip N)).set 4 (ip (N + 15)) = c' at *
  have R (i : Nat) := get_append c' (L_noArg O V p off cd N) N i hc
  generalize hC : c' ++ L_noArg O V p off cd N = C at *
  rw [evalGuards_of E O dec C e _ (N + 15) 4 h4 (by omega) (R 15) (by omega)]
  rw [step_time E O dec C _ _ _ V.t0 (N + 20) V.t2 O.sub p _ (.time (a - p.toInt)) (R 16) (by segs R) (by omega) (by omega)
    (by omega) (by omega) ha (call_sub_time E O hd a p fa)]
  rw [step_time E O dec C _ _ _ V.t1 (N + 26) V.t3 O.sub p _ (.time (b - p.toInt)) (R 17) (by segs R) (by omega) (by omega)
    (by omega) (by omega) (by rw [set_ne _ V.t0 V.t3 _ (ne_of V hn 5 1 (by decide) : V.t3 ≠ V.t0)]; exact hb) (call_sub_time E O hd b p fb)]
  rw [step_time E O dec C _ _ _ V.s0 (N + 32) V.t2 O.sub off _ (.time (a - off.toInt)) (R 18) (by segs R) (by omega) (by omega)
    (by omega) (by omega) (by rw [set_ne _ V.t1 V.t2 _ (ne_of V hn 4 2 (by decide) : V.t2 ≠ V.t1), set_ne _ V.t0 V.t2 _ (ne_of V hn 4 1 (by decide) : V.t2 ≠ V.t0)]; exact ha) (call_sub_time E O hd a off fo)]
  rw [step_time E O dec C _ _ _ V.s1 (N + 38) V.t3 O.sub p _ (.time (b - p.toInt)) (R 19) (by segs R) (by omega) (by omega)
    (by omega) (by omega) (by rw [set_ne _ V.s0 V.t3 _ (ne_of V hn 5 7 (by decide) : V.t3 ≠ V.s0), set_ne _ V.t1 V.t3 _ (ne_of V hn 5 2 (by decide) : V.t3 ≠ V.t1), set_ne _ V.t0 V.t3 _ (ne_of V hn 5 1 (by decide) : V.t3 ≠ V.t0)]; exact hb) (call_sub_time E O hd b p fb)]
  rfl

theorem cmd_fwd (V : Vars) (c : Code) (wi : Nat) (m : Bool) (p off : BitVec 64) (a b : Int) (x y v : Ops.Val)
    (K : Ok O V c wi) (ha : e V.t0 = some (.time a)) (hb : e V.t1 = some (.time b))
    (fa : fits (a + p.toInt) = true) (fb : fits (b + p.toInt) = true)
    (hq : e V.q0 = some x) (hs : e V.s = some y) (hval : call E O (fwdOp O m) x y = some v) :
    evalGuards E O dec (build O V (.cmd m p off) c wi).1 fwdGuards e =
      some (((e.set V.t2 (.time (a + p.toInt))).set V.t3 (.time (b + p.toInt))).set V.q1 v) := by
  obtain ⟨len, room, hop, hd, hv, hn⟩ := K
  obtain ⟨N, hN⟩ : ∃ N, wi + 1 = N := ⟨_, rfl⟩
  rw [hN] at len
  have hop' : ∀ m, (fwdOp O m).toNat < 4096 := by intro m; cases m <;> simp [fwdOp, hop]
  simp only [build]
  rw [layout_cmd O V m p off c N wi len hN (by omega)]
  obtain ⟨hc, h3, h4⟩ := headers c (L_cmd O V m p off N) N 20 len (by omega)
  simp only [st]
  generalize (c.set 3 (ip N)).set 4 (ip (N + 20)) = c' at *
  have R (i : Nat) := get_append c' (L_cmd O V m p off N) N i hc
  generalize hC : c' ++ L_cmd O V m p off N = C at *
  rw [evalGuards_of E O dec C e _ (N + 0) 3 h3 (by omega) (R 0) (by omega)]
  rw [step_time E O dec C _ _ _ V.t2 (N + 4) V.t0 O.add p _ (.time (a + p.toInt)) (R 1) (by segs R) (by omega) (by omega)
    (by omega) (by omega) ha (call_add_time E O a p fa)]
  rw [step_time E O dec C _ _ _ V.t3 (N + 10) V.t1 O.add p _ (.time (b + p.toInt)) (R 2) (by segs R) (by omega) (by omega)
    (by omega) (by omega) (by rw [set_ne _ V.t2 V.t1 _ (ne_of V hn 2 4 (by decide) : V.t1 ≠ V.t2)]; exact hb) (call_add_time E O b p fb)]
  rw [evalFrom_cons E O dec C _ _ _ V.q1 (N + 16) v (R 3) (by omega) (by omega) (by
    rw [show (65536 : Nat) = 65534 + 1 + 1 from rfl, eval_op E O dec C _ _ _ (fwdOp O m) (R 16) (hop' m),
      eval_vl E O dec C _ _ _ V.q0 (R 17) (by omega), eval_vl E O dec C _ _ _ V.s (R 18) (by omega),
      set_ne _ V.t3 V.q0 _ (ne_of V hn 0 5 (by decide) : V.q0 ≠ V.t3), set_ne _ V.t2 V.q0 _ (ne_of V hn 0 4 (by decide) : V.q0 ≠ V.t2), hq, set_ne _ V.t3 V.s _ (ne_of V hn 6 5 (by decide) : V.s ≠ V.t3), set_ne _ V.t2 V.s _ (ne_of V hn 6 4 (by decide) : V.s ≠ V.t2), hs]
    exact hval)]
  rfl

theorem cmd_bwd (V : Vars) (c : Code) (wi : Nat) (m : Bool) (p off : BitVec 64) (a b : Int) (x y v : Ops.Val)
    (K : Ok O V c wi) (ha : e V.t2 = some (.time a)) (hb : e V.t3 = some (.time b))
    (fa : fits (a - p.toInt) = true) (fb : fits (b - p.toInt) = true) (fo : fits (a - off.toInt) = true)
    (hq : e V.q1 = some x) (hs : e V.q0 = some y) (hval : call E O (bwdOp O m) x y = some v) :
    evalGuards E O dec (build O V (.cmd m p off) c wi).1 bwdGuards e =
      some (((((e.set V.t0 (.time (a - p.toInt))).set V.t1 (.time (b - p.toInt))).set V.s0 (.time (a - off.toInt))).set V.s1 (.time (b - p.toInt))).set V.s v) := by
  obtain ⟨len, room, hop, hd, hv, hn⟩ := K
  obtain ⟨N, hN⟩ : ∃ N, wi + 1 = N := ⟨_, rfl⟩
  rw [hN] at len
  have hop' : ∀ m, (bwdOp O m).toNat < 4096 := by intro m; cases m <;> simp [bwdOp, hop]
  simp only [build]
  rw [layout_cmd O V m p off c N wi len hN (by omega)]
  obtain ⟨hc, h3, h4⟩ := headers c (L_cmd O V m p off N) N 20 len (by omega)
  simp only [st]
  generalize (c.set 3 (ip N)).set 4 (ip (N + 20)) = c' at *
  have R (i : Nat) := get_append c' (L_cmd O V m p off N) N i hc
  generalize hC : c' ++ L_cmd O V m p off N = C at *
  rw [evalGuards_of E O dec C e _ (N + 20) 5 h4 (by omega) (R 20) (by omega)]
  rw [step_time E O dec C _ _ _ V.t0 (N + 26) V.t2 O.sub p _ (.time (a - p.toInt)) (R 21) (by segs R) (by omega) (by omega)
    (by omega) (by omega) ha (call_sub_time E O hd a p fa)]
  rw [step_time E O dec C _ _ _ V.t1 (N + 32) V.t3 O.sub p _ (.time (b - p.toInt)) (R 22) (by segs R) (by omega) (by omega)
    (by omega) (by omega) (by rw [set_ne _ V.t0 V.t3 _ (ne_of V hn 5 1 (by decide) : V.t3 ≠ V.t0)]; exact hb) (call_sub_time E O hd b p fb)]
  rw [step_time E O dec C _ _ _ V.s0 (N + 38) V.t2 O.sub off _ (.time (a - off.toInt)) (R 23) (by segs R) (by omega) (by omega)
    (by omega) (by omega) (by rw [set_ne _ V.t1 V.t2 _ (ne_of V hn 4 2 (by decide) : V.t2 ≠ V.t1), set_ne _ V.t0 V.t2 _ (ne_of V hn 4 1 (by decide) : V.t2 ≠ V.t0)]; exact ha) (call_sub_time E O hd a off fo)]
  rw [step_time E O dec C _ _ _ V.s1 (N + 44) V.t3 O.sub p _ (.time (b - p.toInt)) (R 24) (by segs R) (by omega) (by omega)
    (by omega) (by omega) (by rw [set_ne _ V.s0 V.t3 _ (ne_of V hn 5 7 (by decide) : V.t3 ≠ V.s0), set_ne _ V.t1 V.t3 _ (ne_of V hn 5 2 (by decide) : V.t3 ≠ V.t1), set_ne _ V.t0 V.t3 _ (ne_of V hn 5 1 (by decide) : V.t3 ≠ V.t0)]; exact hb) (call_sub_time E O hd b p fb)]
  rw [evalFrom_cons E O dec C _ _ _ V.s (N + 50) v (R 25) (by omega) (by omega) (by
    rw [show (65536 : Nat) = 65534 + 1 + 1 from rfl, eval_op E O dec C _ _ _ (bwdOp O m) (R 50) (hop' m),
      eval_vl E O dec C _ _ _ V.q1 (R 51) (by omega), eval_vl E O dec C _ _ _ V.q0 (R 52) (by omega),
      set_ne _ V.s1 V.q1 _ (ne_of V hn 3 8 (by decide) : V.q1 ≠ V.s1), set_ne _ V.s0 V.q1 _ (ne_of V hn 3 7 (by decide) : V.q1 ≠ V.s0), set_ne _ V.t1 V.q1 _ (ne_of V hn 3 2 (by decide) : V.q1 ≠ V.t1), set_ne _ V.t0 V.q1 _ (ne_of V hn 3 1 (by decide) : V.q1 ≠ V.t0), hq, set_ne _ V.s1 V.q0 _ (ne_of V hn 0 8 (by decide) : V.q0 ≠ V.s1), set_ne _ V.s0 V.q0 _ (ne_of V hn 0 7 (by decide) : V.q0 ≠ V.s0), set_ne _ V.t1 V.q0 _ (ne_of V hn 0 2 (by decide) : V.q0 ≠ V.t1), set_ne _ V.t0 V.q0 _ (ne_of V hn 0 1 (by decide) : V.q0 ≠ V.t0), hs]
    exact hval)]
  rfl

theorem const_fwd (V : Vars) (c : Code) (wi : Nat) (m : Bool) (p off : BitVec 64) (k : BitVec 32) (a b : Int) (x v : Ops.Val)
    (K : Ok O V c wi) (ha : e V.t0 = some (.time a)) (hb : e V.t1 = some (.time b))
    (fa : fits (a + p.toInt) = true) (fb : fits (b + p.toInt) = true)
    (hq : e V.q0 = some x) (hval : call E O (fwdOp O m) x (.num (dec (float k))) = some v) :
    evalGuards E O dec (build O V (.const m p off k) c wi).1 fwdGuards e =
      some (((e.set V.t2 (.time (a + p.toInt))).set V.t3 (.time (b + p.toInt))).set V.q1 v) := by
  obtain ⟨len, room, hop, hd, hv, hn⟩ := K
  obtain ⟨N, hN⟩ : ∃ N, wi + 1 = N := ⟨_, rfl⟩
  rw [hN] at len
  have hop' : ∀ m, (fwdOp O m).toNat < 4096 := by intro m; cases m <;> simp [fwdOp, hop]
  simp only [build]
  rw [layout_const O V m p off k c N wi len hN (by omega)]
  obtain ⟨hc, h3, h4⟩ := headers c (L_const O V m p off k N) N 20 len (by omega)
  simp only [st]
  generalize (c.set 3 (ip N)).set 4 (ip (N + 20)) = c' at *
  have R (i : Nat) := get_append c' (L_const O V m p off k N) N i hc
  generalize hC : c' ++ L_const O V m p off k N = C at *
  rw [evalGuards_of E O dec C e _ (N + 0) 3 h3 (by omega) (R 0) (by omega)]
  rw [step_time E O dec C _ _ _ V.t2 (N + 4) V.t0 O.add p _ (.time (a + p.toInt)) (R 1) (by segs R) (by omega) (by omega)
    (by omega) (by omega) ha (call_add_time E O a p fa)]
  rw [step_time E O dec C _ _ _ V.t3 (N + 10) V.t1 O.add p _ (.time (b + p.toInt)) (R 2) (by segs R) (by omega) (by omega)
    (by omega) (by omega) (by rw [set_ne _ V.t2 V.t1 _ (ne_of V hn 2 4 (by decide) : V.t1 ≠ V.t2)]; exact hb) (call_add_time E O b p fb)]
  rw [evalFrom_cons E O dec C _ _ _ V.q1 (N + 16) v (R 3) (by omega) (by omega) (by
    rw [show (65536 : Nat) = 65534 + 1 + 1 from rfl, eval_op E O dec C _ _ _ (fwdOp O m) (R 16) (hop' m),
      eval_vl E O dec C _ _ _ V.q0 (R 17) (by omega), eval_float E O dec C _ _ _ k (R 18),
      set_ne _ V.t3 V.q0 _ (ne_of V hn 0 5 (by decide) : V.q0 ≠ V.t3), set_ne _ V.t2 V.q0 _ (ne_of V hn 0 4 (by decide) : V.q0 ≠ V.t2), hq]
    exact hval)]
  rfl

theorem const_bwd (V : Vars) (c : Code) (wi : Nat) (m : Bool) (p off : BitVec 64) (k : BitVec 32) (a b : Int) (x v : Ops.Val)
    (K : Ok O V c wi) (ha : e V.t2 = some (.time a)) (hb : e V.t3 = some (.time b))
    (fa : fits (a - p.toInt) = true) (fb : fits (b - p.toInt) = true) (fo : fits (a - off.toInt) = true)
    (hq : e V.q1 = some x) (hval : call E O (bwdOp O m) x (.num (dec (float k))) = some v) :
    evalGuards E O dec (build O V (.const m p off k) c wi).1 bwdGuards e =
      some (((((e.set V.t0 (.time (a - p.toInt))).set V.t1 (.time (b - p.toInt))).set V.t2 (.time (a - off.toInt))).set V.t3 (.time (b - p.toInt))).set V.q0 v) := by
  obtain ⟨len, room, hop, hd, hv, hn⟩ := K
  obtain ⟨N, hN⟩ : ∃ N, wi + 1 = N := ⟨_, rfl⟩
  rw [hN] at len
  have hop' : ∀ m, (bwdOp O m).toNat < 4096 := by intro m; cases m <;> simp [bwdOp, hop]
  simp only [build]
  rw [layout_const O V m p off k c N wi len hN (by omega)]
  obtain ⟨hc, h3, h4⟩ := headers c (L_const O V m p off k N) N 20 len (by omega)
  simp only [st]
  generalize (c.set 3 (ip N)).set 4 (ip (N + 20)) = c' at *
  have R (i : Nat) := get_append c' (L_const O V m p off k N) N i hc
  generalize hC : c' ++ L_const O V m p off k N = C at *
  rw [evalGuards_of E O dec C e _ (N + 20) 5 h4 (by omega) (R 20) (by omega)]
  rw [step_time E O dec C _ _ _ V.t0 (N + 26) V.t2 O.sub p _ (.time (a - p.toInt)) (R 21) (by segs R) (by omega) (by omega)
    (by omega) (by omega) ha (call_sub_time E O hd a p fa)]
  rw [step_time E O dec C _ _ _ V.t1 (N + 32) V.t3 O.sub p _ (.time (b - p.toInt)) (R 22) (by segs R) (by omega) (by omega)
    (by omega) (by omega) (by rw [set_ne _ V.t0 V.t3 _ (ne_of V hn 5 1 (by decide) : V.t3 ≠ V.t0)]; exact hb) (call_sub_time E O hd b p fb)]
  rw [step_time E O dec C _ _ _ V.t2 (N + 38) V.t2 O.sub off _ (.time (a - off.toInt)) (R 23) (by segs R) (by omega) (by omega)
    (by omega) (by omega) (by rw [set_ne _ V.t1 V.t2 _ (ne_of V hn 4 2 (by decide) : V.t2 ≠ V.t1), set_ne _ V.t0 V.t2 _ (ne_of V hn 4 1 (by decide) : V.t2 ≠ V.t0)]; exact ha) (call_sub_time E O hd a off fo)]
  rw [step_time E O dec C _ _ _ V.t3 (N + 44) V.t3 O.sub p _ (.time (b - p.toInt)) (R 24) (by segs R) (by omega) (by omega)
    (by omega) (by omega) (by rw [set_ne _ V.t2 V.t3 _ (ne_of V hn 5 4 (by decide) : V.t3 ≠ V.t2), set_ne _ V.t1 V.t3 _ (ne_of V hn 5 2 (by decide) : V.t3 ≠ V.t1), set_ne _ V.t0 V.t3 _ (ne_of V hn 5 1 (by decide) : V.t3 ≠ V.t0)]; exact hb) (call_sub_time E O hd b p fb)]
  rw [evalFrom_cons E O dec C _ _ _ V.q0 (N + 50) v (R 25) (by omega) (by omega) (by
    rw [show (65536 : Nat) = 65534 + 1 + 1 from rfl, eval_op E O dec C _ _ _ (bwdOp O m) (R 50) (hop' m),
      eval_vl E O dec C _ _ _ V.q1 (R 51) (by omega), eval_float E O dec C _ _ _ k (R 52),
      set_ne _ V.t3 V.q1 _ (ne_of V hn 3 5 (by decide) : V.q1 ≠ V.t3), set_ne _ V.t2 V.q1 _ (ne_of V hn 3 4 (by decide) : V.q1 ≠ V.t2), set_ne _ V.t1 V.q1 _ (ne_of V hn 3 2 (by decide) : V.q1 ≠ V.t1), set_ne _ V.t0 V.q1 _ (ne_of V hn 3 1 (by decide) : V.q1 ≠ V.t0), hq]
    exact hval)]
  rfl

theorem speed_fwd (V : Vars) (c : Code) (wi : Nat) (p off : BitVec 64) (a b : Int) (x y z v : Ops.Val)
    (K : Ok O V c wi) (ha : e V.t0 = some (.time a)) (hb : e V.t1 = some (.time b))
    (fa : fits (a + p.toInt) = true) (fb : fits (b + p.toInt) = true)
    (hq : e V.q0 = some x) (hs : e V.s = some y) (hmul : call E O O.mul y (.dur p.toInt) = some z)
    (hval : call E O O.add x z = some v) :
    evalGuards E O dec (build O V (.speed p off) c wi).1 fwdGuards e =
      some (((e.set V.t2 (.time (a + p.toInt))).set V.t3 (.time (b + p.toInt))).set V.q1 v) := by
  obtain ⟨len, room, hop, hd, hv, hn⟩ := K
  obtain ⟨N, hN⟩ : ∃ N, wi + 1 = N := ⟨_, rfl⟩
  rw [hN] at len
  simp only [build]
  rw [layout_speed O V p off c N wi len hN (by omega)]
  obtain ⟨hc, h3, h4⟩ := headers c (L_speed O V p off N) N 25 len (by omega)
  simp only [st]
  generalize (c.set 3 (ip N)).set 4 (ip (N + 25)) = c' at *
  have R (i : Nat) := get_append c' (L_speed O V p off N) N i hc
  generalize hC : c' ++ L_speed O V p off N = C at *
  rw [evalGuards_of E O dec C e _ (N + 0) 3 h3 (by omega) (R 0) (by omega)]
  rw [step_time E O dec C _ _ _ V.t2 (N + 4) V.t0 O.add p _ (.time (a + p.toInt)) (R 1) (by segs R) (by omega) (by omega)
    (by omega) (by omega) ha (call_add_time E O a p fa)]
  rw [step_time E O dec C _ _ _ V.t3 (N + 10) V.t1 O.add p _ (.time (b + p.toInt)) (R 2) (by segs R) (by omega) (by omega)
    (by omega) (by omega) (by rw [set_ne _ V.t2 V.t1 _ (ne_of V hn 2 4 (by decide) : V.t1 ≠ V.t2)]; exact hb) (call_add_time E O b p fb)]
  rw [evalFrom_cons E O dec C _ _ _ V.q1 (N + 16) v (R 3) (by omega) (by omega) (by
    rw [show (65536 : Nat) = 65531 + 1 + 1 + 1 + 1 + 1 from rfl, eval_op E O dec C _ _ _ O.add (R 16) hop.1,
      eval_vl E O dec C _ _ _ V.q0 (R 17) (by omega), eval_ip E O dec C _ _ _ (N + 19) (R 18) (by omega),
      eval_op E O dec C _ _ _ O.mul (R 19) hop.2.2.1, eval_vl E O dec C _ _ _ V.s (R 20) (by omega),
      eval_ip E O dec C _ _ _ (N + 22) (R 21) (by omega), eval_dur E O dec C _ _ _ p (R 22) (R 23) (R 24),
      set_ne _ V.t3 V.q0 _ (ne_of V hn 0 5 (by decide) : V.q0 ≠ V.t3), set_ne _ V.t2 V.q0 _ (ne_of V hn 0 4 (by decide) : V.q0 ≠ V.t2), hq, set_ne _ V.t3 V.s _ (ne_of V hn 6 5 (by decide) : V.s ≠ V.t3), set_ne _ V.t2 V.s _ (ne_of V hn 6 4 (by decide) : V.s ≠ V.t2), hs]
    simp only [hmul]
    exact hval)]
  rfl

theorem speed_bwd (V : Vars) (c : Code) (wi : Nat) (p off : BitVec 64) (a b : Int) (x y z v : Ops.Val)
    (K : Ok O V c wi) (ha : e V.t2 = some (.time a)) (hb : e V.t3 = some (.time b))
    (fa : fits (a - p.toInt) = true) (fb : fits (b - p.toInt) = true) (fo : fits (a - off.toInt) = true)
    (hq : e V.q1 = some x) (hs : e V.q0 = some y) (hmul : call E O O.sub x y = some z)
    (hval : call E O O.div z (.dur p.toInt) = some v) :
    evalGuards E O dec (build O V (.speed p off) c wi).1 bwdGuards e =
      some (((((e.set V.t0 (.time (a - p.toInt))).set V.t1 (.time (b - p.toInt))).set V.s0 (.time (a - off.toInt))).set V.s1 (.time (b - p.toInt))).set V.s v) := by
  obtain ⟨len, room, hop, hd, hv, hn⟩ := K
  obtain ⟨N, hN⟩ : ∃ N, wi + 1 = N := ⟨_, rfl⟩
  rw [hN] at len
  simp only [build]
  rw [layout_speed O V p off c N wi len hN (by omega)]
  obtain ⟨hc, h3, h4⟩ := headers c (L_speed O V p off N) N 25 len (by omega)
  simp only [st]
  generalize (c.set 3 (ip N)).set 4 (ip (N + 25)) = c' at *
  have R (i : Nat) := get_append c' (L_speed O V p off N) N i hc
  generalize hC : c' ++ L_speed O V p off N = C at *
  rw [evalGuards_of E O dec C e _ (N + 25) 5 h4 (by omega) (R 25) (by omega)]
  rw [step_time E O dec C _ _ _ V.t0 (N + 31) V.t2 O.sub p _ (.time (a - p.toInt)) (R 26) (by segs R) (by omega) (by omega)
    (by omega) (by omega) ha (call_sub_time E O hd a p fa)]
  rw [step_time E O dec C _ _ _ V.t1 (N + 37) V.t3 O.sub p _ (.time (b - p.toInt)) (R 27) (by segs R) (by omega) (by omega)
    (by omega) (by omega) (by rw [set_ne _ V.t0 V.t3 _ (ne_of V hn 5 1 (by decide) : V.t3 ≠ V.t0)]; exact hb) (call_sub_time E O hd b p fb)]
  rw [step_time E O dec C _ _ _ V.s0 (N + 43) V.t2 O.sub off _ (.time (a - off.toInt)) (R 28) (by segs R) (by omega) (by omega)
    (by omega) (by omega) (by rw [set_ne _ V.t1 V.t2 _ (ne_of V hn 4 2 (by decide) : V.t2 ≠ V.t1), set_ne _ V.t0 V.t2 _ (ne_of V hn 4 1 (by decide) : V.t2 ≠ V.t0)]; exact ha) (call_sub_time E O hd a off fo)]
  rw [step_time E O dec C _ _ _ V.s1 (N + 49) V.t3 O.sub p _ (.time (b - p.toInt)) (R 29) (by segs R) (by omega) (by omega)
    (by omega) (by omega) (by rw [set_ne _ V.s0 V.t3 _ (ne_of V hn 5 7 (by decide) : V.t3 ≠ V.s0), set_ne _ V.t1 V.t3 _ (ne_of V hn 5 2 (by decide) : V.t3 ≠ V.t1), set_ne _ V.t0 V.t3 _ (ne_of V hn 5 1 (by decide) : V.t3 ≠ V.t0)]; exact hb) (call_sub_time E O hd b p fb)]
  rw [evalFrom_cons E O dec C _ _ _ V.s (N + 55) v (R 30) (by omega) (by omega) (by
    rw [show (65536 : Nat) = 65531 + 1 + 1 + 1 + 1 + 1 from rfl, eval_op E O dec C _ _ _ O.div (R 55) hop.2.2.2,
      eval_ip E O dec C _ _ _ (N + 58) (R 56) (by omega), eval_ip E O dec C _ _ _ (N + 61) (R 57) (by omega),
      eval_op E O dec C _ _ _ O.sub (R 58) hop.2.1, eval_vl E O dec C _ _ _ V.q1 (R 59) (by omega),
      eval_vl E O dec C _ _ _ V.q0 (R 60) (by omega), eval_dur E O dec C _ _ _ p (R 61) (R 62) (R 63),
      set_ne _ V.s1 V.q1 _ (ne_of V hn 3 8 (by decide) : V.q1 ≠ V.s1), set_ne _ V.s0 V.q1 _ (ne_of V hn 3 7 (by decide) : V.q1 ≠ V.s0), set_ne _ V.t1 V.q1 _ (ne_of V hn 3 2 (by decide) : V.q1 ≠ V.t1), set_ne _ V.t0 V.q1 _ (ne_of V hn 3 1 (by decide) : V.q1 ≠ V.t0), hq, set_ne _ V.s1 V.q0 _ (ne_of V hn 0 8 (by decide) : V.q0 ≠ V.s1), set_ne _ V.s0 V.q0 _ (ne_of V hn 0 7 (by decide) : V.q0 ≠ V.s0), set_ne _ V.t1 V.q0 _ (ne_of V hn 0 2 (by decide) : V.q0 ≠ V.t1), set_ne _ V.t0 V.q0 _ (ne_of V hn 0 1 (by decide) : V.q0 ≠ V.t0), hs]
    simp only [hmul]
    exact hval)]
  rfl

end Verif.Guards
