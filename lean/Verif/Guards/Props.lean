import Verif.Guards.Layout
/-!
# C41: generated guards let a model run backwards
-/
namespace Verif.Guards
open Verif.Atom Verif.Words Verif.Ops Verif.F32

/-- Instants within 2^61 µs (some 73000 years). -/
def Instant (a : Int) : Prop := -2305843009213693952 < a ∧ a < 2305843009213693952
/-- The instants a model is learnt from. -/
def Learnt.InRange (L : Learnt) : Prop :=
  Instant L.a0 ∧ Instant L.b0 ∧ Instant L.ac ∧ Instant L.bc ∧ Instant L.a2 ∧ Instant L.b2
/-- The time between the premise and the consequent. -/
def Learnt.period (L : Learnt) : Int := L.a2 - L.a0

/-- A number. -/
def q (x : Rat) : Ops.Val := .num (.fin x)

/-- The documented forms of the value of the right-hand side (pattern_extractor.cpp:1176-1181): the
relation between the premise's value, the cause's value and the consequent's value. `κ` is the
constant. -/
def Law (k : Kind) (κ : Rat) (period : Int) (q0 s q1 : Rat) : Prop :=
  match k with
  | .timing => True
  | .noArg => True
  | .speed => q1 = q0 + s * period
  | .cmd false => q1 = q0 + s
  | .cmd true => q1 = q0 * s
  | .const false _ => q1 = q0 + κ
  | .const true _ => q1 = q0 * κ

/-- The form has a value. -/
def Kind.hasValue : Kind → Bool
  | .timing => false
  | .noArg => false
  | _ => true
/-- The form has its own left-hand side besides the premise. -/
def Kind.hasCause : Kind → Bool
  | .timing => false
  | _ => true
/-- The form uses a constant. -/
def Kind.isConst : Kind → Bool
  | .const _ _ => true
  | _ => false
/-- The value can be recovered: multiplying forms need a factor different from 0. -/
def Invertible (k : Kind) (κ : Rat) (period : Int) (q0 : Rat) : Prop :=
  match k with
  | .speed => period ≠ 0
  | .cmd true => q0 ≠ 0
  | .const true _ => κ ≠ 0
  | _ => True
/-- The constant written is the constant of the law. -/
def Constant (dec : Dec) (k : Kind) (κ : Rat) : Prop :=
  match k with
  | .const _ w => dec (float w) = .fin κ
  | _ => True

theorem ofInt_toInt (d : Int) (h1 : -9223372036854775808 ≤ d) (h2 : d < 9223372036854775808) :
    (BitVec.ofInt 64 d).toInt = d := by
  rw [BitVec.toInt_ofInt]
  exact Int.bmod_eq_of_le (by simpa using h1) (by simpa using h2)

theorem fits_of (n : Int) (h1 : -9223372036854775808 ≤ n) (h2 : n ≤ 9223372036854775807) :
    fits n = true := by simp [fits, h1, h2]

theorem stored_exact (x : Num) : stored exactEnv.A x = x := by
  cases x <;> simp [stored, exactEnv, exact]

section
variable (O : Opc) (hd : [O.add, O.sub, O.mul, O.div].Nodup)
theorem x_add (a b : Rat) : call exactEnv O O.add (q a) (q b) = some (q (a + b)) := by
  simp [call_add, add, number, stored, fadd, exactEnv, exact, value, q]
include hd
theorem x_sub (a b : Rat) : call exactEnv O O.sub (q a) (q b) = some (q (a - b)) := by
  simp [call_sub _ _ hd, sub, number, stored, fsub, exactEnv, exact, value, q]
theorem x_mul (a b : Rat) : call exactEnv O O.mul (q a) (q b) = some (q (a * b)) := by
  simp [call_mul _ _ hd, mul, number, stored, fmul, exactEnv, exact, value, q]
theorem x_div (a b : Rat) (h : b ≠ 0) : call exactEnv O O.div (q a) (q b) = some (q (a / b)) := by
  simp [call_div _ _ hd, div, number, stored, fdiv, exactEnv, exact, value, q, h]
theorem x_mul_dur (a : Rat) (d : Int) : call exactEnv O O.mul (q a) (.dur d) = some (q (a * d)) := by
  simp [call_mul _ _ hd, mul, number, stored, fmul, exactEnv, exact, value, q]
theorem x_div_dur (a : Rat) (d : Int) (h : d ≠ 0) :
    call exactEnv O O.div (q a) (.dur d) = some (q (a / d)) := by
  simp [call_div _ _ hd, div, number, stored, fdiv, exactEnv, exact, value, q, h]
end

/-- C41, forwards: for every form, variable numbering, place in the code, period and values, the
forward guards succeed and give the right-hand side the timings of the premise shifted by the
period and the documented value, and change no other variable. -/
theorem C41_forward (O : Opc) (V : Vars) (dec : Dec) (c : Code) (wi : Nat) (k : Kind) (L : Learnt)
    (e : Bind) (κ : Rat) (a b : Int) (q0 s q1 : Rat)
    (K : Ok O V c wi) (hL : L.InRange) (hk : Constant dec k κ)
    (ha : Instant a ∧ Instant (a + L.period)) (hb : Instant b ∧ Instant (b + L.period))
    (h0 : e V.t0 = some (.time a)) (h1 : e V.t1 = some (.time b)) (hq : e V.q0 = some (q q0))
    (hs : e V.s = some (q s)) (hlaw : Law k κ L.period q0 s q1) :
    ∃ e', evalGuards exactEnv O dec (build O V (learn L k) c wi).1 fwdGuards e = some e' ∧
      e' V.t2 = some (.time (a + L.period)) ∧ e' V.t3 = some (.time (b + L.period)) ∧
      (k.hasValue = true → e' V.q1 = some (q q1)) ∧
      (∀ x, x ≠ V.t2 → x ≠ V.t3 → (k.hasValue = true → x ≠ V.q1) → e' x = e x) := by
  have hn := K.nodup
  have n23 : V.t2 ≠ V.t3 := ne_of V hn 4 5 (by decide)
  have n21 : V.t2 ≠ V.q1 := ne_of V hn 4 3 (by decide)
  have n31 : V.t3 ≠ V.q1 := ne_of V hn 5 3 (by decide)
  simp only [Learnt.InRange, Instant, Learnt.period] at *
  have hp : (BitVec.ofInt 64 (L.a2 - L.a0)).toInt = L.a2 - L.a0 :=
    ofInt_toInt _ (by omega) (by omega)
  have fa : fits (a + (BitVec.ofInt 64 (L.a2 - L.a0)).toInt) = true := by
    rw [hp]; exact fits_of _ (by omega) (by omega)
  have fb : fits (b + (BitVec.ofInt 64 (L.a2 - L.a0)).toInt) = true := by
    rw [hp]; exact fits_of _ (by omega) (by omega)
  rcases k with _ | _ | _ | m | ⟨m, w⟩
  · refine ⟨_, timing_fwd _ O dec e V c wi _ a b K h0 h1 fa fb, ?_⟩
    rw [hp]
    refine ⟨by simp [Bind.set, n23], by simp [Bind.set], by simp [Kind.hasValue], ?_⟩
    intro x hx hx' _; simp [Bind.set, hx, hx']
  · refine ⟨_, speed_fwd _ O dec e V c wi _ _ a b _ _ _ _ K h0 h1 fa fb hq hs
      (x_mul_dur O K.distinct s _) (x_add O _ _), ?_⟩
    rw [hp]
    refine ⟨by simp [Bind.set, n23, n21], by simp [Bind.set, n31], ?_, ?_⟩
    · intro _; rw [show q1 = _ from hlaw]; simp [Bind.set]
    · intro x hx hx' hx''; simp [Bind.set, hx, hx', hx'' rfl]
  · refine ⟨_, noArg_fwd _ O dec e V c wi _ _ _ a b K h0 h1 fa fb, ?_⟩
    rw [hp]
    refine ⟨by simp [Bind.set, n23], by simp [Bind.set], by simp [Kind.hasValue], ?_⟩
    intro x hx hx' _; simp [Bind.set, hx, hx']
  · have hv : call exactEnv O (fwdOp O m) (q q0) (q s) = some (q q1) := by
      cases m
      · rw [show q1 = _ from hlaw]; exact x_add O _ _
      · rw [show q1 = _ from hlaw]; exact x_mul O K.distinct _ _
    refine ⟨_, cmd_fwd _ O dec e V c wi _ _ _ a b _ _ _ K h0 h1 fa fb hq hs hv, ?_⟩
    rw [hp]
    refine ⟨by simp [Bind.set, n23, n21], by simp [Bind.set, n31], fun _ => by simp [Bind.set], ?_⟩
    intro x hx hx' hx''; simp [Bind.set, hx, hx', hx'' rfl]
  · have hv : call exactEnv O (fwdOp O m) (q q0) (.num (dec (float w))) = some (q q1) := by
      rw [show dec (float w) = .fin κ from hk]
      cases m
      · rw [show q1 = _ from hlaw]; exact x_add O _ _
      · rw [show q1 = _ from hlaw]; exact x_mul O K.distinct _ _
    refine ⟨_, const_fwd _ O dec e V c wi _ _ _ _ a b _ _ K h0 h1 fa fb hq hv, ?_⟩
    rw [hp]
    refine ⟨by simp [Bind.set, n23, n21], by simp [Bind.set, n31], fun _ => by simp [Bind.set], ?_⟩
    intro x hx hx' hx''; simp [Bind.set, hx, hx', hx'' rfl]

theorem evalFrom_unbound (E : Env) (O : Opc) (dec : Dec) (C : Code) (e : Bind) (n i l x r : Nat) (op : BitVec 16)
    (d : BitVec 64) (h : get C i = some (asg l x)) (hs : ∀ j < 6, get C (x + j) = (seg x op r d)[j]?)
    (hl : l < 256) (hr : r < 256) (hx : x + 3 < 4096) (ho : op.toNat < 4096) (hv : e r = none) (hw : e l = none) :
    evalFrom E O dec C (n + 1) i e = none := by
  have he : eval E O dec C e 65536 x = none := by
    rw [eval_op E O dec C e 65535 _ op (by simpa [seg] using hs 0 (by omega)) ho,
      eval_vl E O dec C e 65534 _ r (by simpa [seg] using hs 1 (by omega)) hr, hv]
  simp [evalFrom, assign, h, desc_asg, index_asg l x (by omega), var_asg l x hl, he, hw]

theorem unbound_fwd (E : Env) (O : Opc) (V : Vars) (dec : Dec) (c : Code) (wi : Nat) (b : Builder) (e : Bind)
    (K : Ok O V c wi) (h0 : e V.t0 = none) (h2 : e V.t2 = none) :
    evalGuards E O dec (build O V b c wi).1 fwdGuards e = none := by
  obtain ⟨len, room, hop, hd, hv, hn⟩ := K
  obtain ⟨N, hN⟩ : ∃ N, wi + 1 = N := ⟨_, rfl⟩
  rw [hN] at len
  simp only [build]
  rcases b with p | ⟨p, off⟩ | ⟨p, off, cd⟩ | ⟨m, p, off⟩ | ⟨m, p, off, k⟩
  · rw [layout_timing O V p c N wi len hN (by omega)]
    obtain ⟨hc, h3, h4⟩ := headers c (L_timing O V p N) N 15 len (by omega)
    simp only [st]
    generalize (c.set 3 (ip N)).set 4 (ip (N + 15)) = c' at hc h3 h4 ⊢
    have R (i : Nat) := get_append c' (L_timing O V p N) N i hc
    generalize c' ++ L_timing O V p N = C at h3 h4 R ⊢
    rw [evalGuards_of E O dec C e _ (N + 0) 2 h3 (by omega) (R 0) (by omega)]
    exact evalFrom_unbound E O dec C e _ _ V.t2 (N + 3) V.t0 O.add p (R 1) (by segs R) (by omega) (by omega)
      (by omega) (by omega) h0 h2
  · rw [layout_speed O V p off c N wi len hN (by omega)]
    obtain ⟨hc, h3, h4⟩ := headers c (L_speed O V p off N) N 25 len (by omega)
    simp only [st]
    generalize (c.set 3 (ip N)).set 4 (ip (N + 25)) = c' at hc h3 h4 ⊢
    have R (i : Nat) := get_append c' (L_speed O V p off N) N i hc
    generalize c' ++ L_speed O V p off N = C at h3 h4 R ⊢
    rw [evalGuards_of E O dec C e _ (N + 0) 3 h3 (by omega) (R 0) (by omega)]
    exact evalFrom_unbound E O dec C e _ _ V.t2 (N + 4) V.t0 O.add p (R 1) (by segs R) (by omega) (by omega)
      (by omega) (by omega) h0 h2
  · rw [layout_noArg O V p off cd c N wi len hN (by omega)]
    obtain ⟨hc, h3, h4⟩ := headers c (L_noArg O V p off cd N) N 15 len (by omega)
    simp only [st]
    generalize (c.set 3 (ip N)).set 4 (ip (N + 15)) = c' at hc h3 h4 ⊢
    have R (i : Nat) := get_append c' (L_noArg O V p off cd N) N i hc
    generalize c' ++ L_noArg O V p off cd N = C at h3 h4 R ⊢
    rw [evalGuards_of E O dec C e _ (N + 0) 2 h3 (by omega) (R 0) (by omega)]
    exact evalFrom_unbound E O dec C e _ _ V.t2 (N + 3) V.t0 O.add p (R 1) (by segs R) (by omega) (by omega)
      (by omega) (by omega) h0 h2
  · rw [layout_cmd O V m p off c N wi len hN (by omega)]
    obtain ⟨hc, h3, h4⟩ := headers c (L_cmd O V m p off N) N 20 len (by omega)
    simp only [st]
    generalize (c.set 3 (ip N)).set 4 (ip (N + 20)) = c' at hc h3 h4 ⊢
    have R (i : Nat) := get_append c' (L_cmd O V m p off N) N i hc
    generalize c' ++ L_cmd O V m p off N = C at h3 h4 R ⊢
    rw [evalGuards_of E O dec C e _ (N + 0) 3 h3 (by omega) (R 0) (by omega)]
    exact evalFrom_unbound E O dec C e _ _ V.t2 (N + 4) V.t0 O.add p (R 1) (by segs R) (by omega) (by omega)
      (by omega) (by omega) h0 h2
  · rw [layout_const O V m p off k c N wi len hN (by omega)]
    obtain ⟨hc, h3, h4⟩ := headers c (L_const O V m p off k N) N 20 len (by omega)
    simp only [st]
    generalize (c.set 3 (ip N)).set 4 (ip (N + 20)) = c' at hc h3 h4 ⊢
    have R (i : Nat) := get_append c' (L_const O V m p off k N) N i hc
    generalize c' ++ L_const O V m p off k N = C at h3 h4 R ⊢
    rw [evalGuards_of E O dec C e _ (N + 0) 3 h3 (by omega) (R 0) (by omega)]
    exact evalFrom_unbound E O dec C e _ _ V.t2 (N + 4) V.t0 O.add p (R 1) (by segs R) (by omega) (by omega)
      (by omega) (by omega) h0 h2

theorem unbound_bwd (E : Env) (O : Opc) (V : Vars) (dec : Dec) (c : Code) (wi : Nat) (b : Builder) (e : Bind)
    (K : Ok O V c wi) (h0 : e V.t0 = none) (h2 : e V.t2 = none) :
    evalGuards E O dec (build O V b c wi).1 bwdGuards e = none := by
  obtain ⟨len, room, hop, hd, hv, hn⟩ := K
  obtain ⟨N, hN⟩ : ∃ N, wi + 1 = N := ⟨_, rfl⟩
  rw [hN] at len
  simp only [build]
  rcases b with p | ⟨p, off⟩ | ⟨p, off, cd⟩ | ⟨m, p, off⟩ | ⟨m, p, off, k⟩
  · rw [layout_timing O V p c N wi len hN (by omega)]
    obtain ⟨hc, h3, h4⟩ := headers c (L_timing O V p N) N 15 len (by omega)
    simp only [st]
    generalize (c.set 3 (ip N)).set 4 (ip (N + 15)) = c' at hc h3 h4 ⊢
    have R (i : Nat) := get_append c' (L_timing O V p N) N i hc
    generalize c' ++ L_timing O V p N = C at h3 h4 R ⊢
    rw [evalGuards_of E O dec C e _ (N + 15) 2 h4 (by omega) (R 15) (by omega)]
    exact evalFrom_unbound E O dec C e _ _ V.t0 (N + 18) V.t2 O.sub p (R 16) (by segs R) (by omega) (by omega)
      (by omega) (by omega) h2 h0
  · rw [layout_speed O V p off c N wi len hN (by omega)]
    obtain ⟨hc, h3, h4⟩ := headers c (L_speed O V p off N) N 25 len (by omega)
    simp only [st]
    generalize (c.set 3 (ip N)).set 4 (ip (N + 25)) = c' at hc h3 h4 ⊢
    have R (i : Nat) := get_append c' (L_speed O V p off N) N i hc
    generalize c' ++ L_speed O V p off N = C at h3 h4 R ⊢
    rw [evalGuards_of E O dec C e _ (N + 25) 5 h4 (by omega) (R 25) (by omega)]
    exact evalFrom_unbound E O dec C e _ _ V.t0 (N + 31) V.t2 O.sub p (R 26) (by segs R) (by omega) (by omega)
      (by omega) (by omega) h2 h0
  · rw [layout_noArg O V p off cd c N wi len hN (by omega)]
    obtain ⟨hc, h3, h4⟩ := headers c (L_noArg O V p off cd N) N 15 len (by omega)
    simp only [st]
    generalize (c.set 3 (ip N)).set 4 (ip (N + 15)) = c' at hc h3 h4 ⊢
    have R (i : Nat) := get_append c' (L_noArg O V p off cd N) N i hc
    generalize c' ++ L_noArg O V p off cd N = C at h3 h4 R ⊢
    rw [evalGuards_of E O dec C e _ (N + 15) 4 h4 (by omega) (R 15) (by omega)]
    exact evalFrom_unbound E O dec C e _ _ V.t0 (N + 20) V.t2 O.sub p (R 16) (by segs R) (by omega) (by omega)
      (by omega) (by omega) h2 h0
  · rw [layout_cmd O V m p off c N wi len hN (by omega)]
    obtain ⟨hc, h3, h4⟩ := headers c (L_cmd O V m p off N) N 20 len (by omega)
    simp only [st]
    generalize (c.set 3 (ip N)).set 4 (ip (N + 20)) = c' at hc h3 h4 ⊢
    have R (i : Nat) := get_append c' (L_cmd O V m p off N) N i hc
    generalize c' ++ L_cmd O V m p off N = C at h3 h4 R ⊢
    rw [evalGuards_of E O dec C e _ (N + 20) 5 h4 (by omega) (R 20) (by omega)]
    exact evalFrom_unbound E O dec C e _ _ V.t0 (N + 26) V.t2 O.sub p (R 21) (by segs R) (by omega) (by omega)
      (by omega) (by omega) h2 h0
  · rw [layout_const O V m p off k c N wi len hN (by omega)]
    obtain ⟨hc, h3, h4⟩ := headers c (L_const O V m p off k N) N 20 len (by omega)
    simp only [st]
    generalize (c.set 3 (ip N)).set 4 (ip (N + 20)) = c' at hc h3 h4 ⊢
    have R (i : Nat) := get_append c' (L_const O V m p off k N) N i hc
    generalize c' ++ L_const O V m p off k N = C at h3 h4 R ⊢
    rw [evalGuards_of E O dec C e _ (N + 20) 5 h4 (by omega) (R 20) (by omega)]
    exact evalFrom_unbound E O dec C e _ _ V.t0 (N + 26) V.t2 O.sub p (R 21) (by segs R) (by omega) (by omega)
      (by omega) (by omega) h2 h0

/-- C41: where neither the timings of the premise nor those of the right-hand side are known, the guards do
not hold, neither forwards nor backwards. -/
theorem C41_unbound (E : Env) (O : Opc) (V : Vars) (dec : Dec) (c : Code) (wi : Nat) (k : Kind) (L : Learnt)
    (e : Bind) (K : Ok O V c wi) (h0 : e V.t0 = none) (h2 : e V.t2 = none) :
    evalGuards E O dec (build O V (learn L k) c wi).1 fwdGuards e = none ∧
    evalGuards E O dec (build O V (learn L k) c wi).1 bwdGuards e = none :=
  ⟨unbound_fwd E O V dec c wi _ e K h0 h2, unbound_bwd E O V dec c wi _ e K h0 h2⟩

/-- C41, backwards, as stated: from the timings and value of the right-hand side (and, for the forms
that need it, the premise's value), the backward guards give back the timings of the premise, those
of the cause, and the cause's value (the premise's, for the forms with a constant), and leave the
right-hand side alone.  The timings are those of any situation like the one learnt from, `δ` later. -/
def C41_backward_full : Prop :=
  ∀ (O : Opc) (V : Vars) (dec : Dec) (c : Code) (wi : Nat) (k : Kind) (L : Learnt) (e : Bind) (κ : Rat)
    (δ : Int) (q0 s q1 : Rat), Ok O V c wi → L.InRange → Constant dec k κ → Invertible k κ L.period q0 →
    L.b2 - L.b0 = L.a2 - L.a0 →
    Instant (L.a0 + δ) → Instant (L.b0 + δ) → Instant (L.ac + δ) → Instant (L.bc + δ) →
    Instant (L.a2 + δ) → Instant (L.b2 + δ) →
    e V.t2 = some (.time (L.a2 + δ)) → e V.t3 = some (.time (L.b2 + δ)) →
    (k.isConst = false → e V.q0 = some (q q0)) → e V.q1 = some (q q1) → Law k κ L.period q0 s q1 →
    ∃ e', evalGuards exactEnv O dec (build O V (learn L k) c wi).1 bwdGuards e = some e' ∧
      e' V.t0 = some (.time (L.a0 + δ)) ∧ e' V.t1 = some (.time (L.b0 + δ)) ∧
      (k.hasCause = true → e' V.s0 = some (.time (L.ac + δ)) ∧ e' V.s1 = some (.time (L.bc + δ))) ∧
      (k.hasValue = true → k.isConst = false → e' V.s = some (q s)) ∧
      (k.isConst = true → e' V.q0 = some (q q0)) ∧
      e' V.t2 = some (.time (L.a2 + δ)) ∧ e' V.t3 = some (.time (L.b2 + δ))

/-- C41, backwards, the part that holds (missing: the end of the cause's timings unless it coincides
with the premise's, and everything about the cause and the right-hand side's timings for the forms
with a constant): the premise's timings, the beginning of the cause's, and the value are recovered;
the cause's end is set to the premise's. -/
theorem C41_backward_partial (O : Opc) (V : Vars) (dec : Dec) (c : Code) (wi : Nat) (k : Kind)
    (L : Learnt) (e : Bind) (κ : Rat) (δ : Int) (q0 s q1 : Rat)
    (K : Ok O V c wi) (hL : L.InRange) (hk : Constant dec k κ) (hinv : Invertible k κ L.period q0)
    (hb : L.b2 - L.b0 = L.a2 - L.a0)
    (i1 : Instant (L.a0 + δ)) (i2 : Instant (L.b0 + δ)) (i3 : Instant (L.ac + δ))
    (i5 : Instant (L.a2 + δ)) (i6 : Instant (L.b2 + δ))
    (h2 : e V.t2 = some (.time (L.a2 + δ))) (h3 : e V.t3 = some (.time (L.b2 + δ)))
    (hq0 : k.isConst = false → e V.q0 = some (q q0)) (hq1 : e V.q1 = some (q q1))
    (hlaw : Law k κ L.period q0 s q1) :
    ∃ e', evalGuards exactEnv O dec (build O V (learn L k) c wi).1 bwdGuards e = some e' ∧
      e' V.t0 = some (.time (L.a0 + δ)) ∧ e' V.t1 = some (.time (L.b0 + δ)) ∧
      (k.hasCause = true → k.isConst = false →
        e' V.s0 = some (.time (L.ac + δ)) ∧ e' V.s1 = some (.time (L.b0 + δ))) ∧
      (k.hasValue = true → k.isConst = false → e' V.s = some (q s)) ∧
      (k.isConst = true → e' V.q0 = some (q q0)) ∧
      (k.isConst = false → e' V.t2 = some (.time (L.a2 + δ)) ∧ e' V.t3 = some (.time (L.b2 + δ))) ∧
      (k.isConst = true → e' V.t2 = some (.time (L.a2 + δ - (L.ac - L.a0))) ∧
        e' V.t3 = some (.time (L.b0 + δ)) ∧ e' V.s0 = e V.s0 ∧ e' V.s1 = e V.s1) := by
  have hn := K.nodup
  have ne (x y : Fin 9) (h : x ≠ y) := ne_of V hn x y h
  have t0t1 : V.t0 ≠ V.t1 := ne 1 2 (by decide)
  have t0s0 : V.t0 ≠ V.s0 := ne 1 7 (by decide)
  have t0s1 : V.t0 ≠ V.s1 := ne 1 8 (by decide)
  have t0s : V.t0 ≠ V.s := ne 1 6 (by decide)
  have t1s0 : V.t1 ≠ V.s0 := ne 2 7 (by decide)
  have t1s1 : V.t1 ≠ V.s1 := ne 2 8 (by decide)
  have t1s : V.t1 ≠ V.s := ne 2 6 (by decide)
  have s0s1 : V.s0 ≠ V.s1 := ne 7 8 (by decide)
  have s0s : V.s0 ≠ V.s := ne 7 6 (by decide)
  have s1s : V.s1 ≠ V.s := ne 8 6 (by decide)
  have t2t0 : V.t2 ≠ V.t0 := ne 4 1 (by decide)
  have t2t1 : V.t2 ≠ V.t1 := ne 4 2 (by decide)
  have t2t3 : V.t2 ≠ V.t3 := ne 4 5 (by decide)
  have t2s0 : V.t2 ≠ V.s0 := ne 4 7 (by decide)
  have t2s1 : V.t2 ≠ V.s1 := ne 4 8 (by decide)
  have t2s : V.t2 ≠ V.s := ne 4 6 (by decide)
  have t2q0 : V.t2 ≠ V.q0 := ne 4 0 (by decide)
  have t3t0 : V.t3 ≠ V.t0 := ne 5 1 (by decide)
  have t3t1 : V.t3 ≠ V.t1 := ne 5 2 (by decide)
  have t3s0 : V.t3 ≠ V.s0 := ne 5 7 (by decide)
  have t3s1 : V.t3 ≠ V.s1 := ne 5 8 (by decide)
  have t3s : V.t3 ≠ V.s := ne 5 6 (by decide)
  have t3q0 : V.t3 ≠ V.q0 := ne 5 0 (by decide)
  have t0t3 : V.t0 ≠ V.t3 := ne 1 5 (by decide)
  have t1t3 : V.t1 ≠ V.t3 := ne 2 5 (by decide)
  have t0q0 : V.t0 ≠ V.q0 := ne 1 0 (by decide)
  have t1q0 : V.t1 ≠ V.q0 := ne 2 0 (by decide)
  have s0q0 : V.s0 ≠ V.q0 := ne 7 0 (by decide)
  have s1q0 : V.s1 ≠ V.q0 := ne 8 0 (by decide)
  have s0t0 := t0s0.symm
  have s1t0 := t0s1.symm
  have s0t1 := t1s0.symm
  have s1t1 := t1s1.symm
  have s0t2 := t2s0.symm
  have s1t2 := t2s1.symm
  have s0t3 := t3s0.symm
  have s1t3 := t3s1.symm
  have t0t2 := t2t0.symm
  have t1t2 := t2t1.symm
  simp only [Learnt.InRange, Instant, Learnt.period] at *
  have hp : (BitVec.ofInt 64 (L.a2 - L.a0)).toInt = L.a2 - L.a0 :=
    ofInt_toInt _ (by omega) (by omega)
  have ho : (BitVec.ofInt 64 (L.a2 - L.a0 - (L.ac - L.a0))).toInt = L.a2 - L.ac := by
    rw [ofInt_toInt _ (by omega) (by omega)]; omega
  have ho' : (BitVec.ofInt 64 (L.a2 - L.ac)).toInt = L.a2 - L.ac :=
    ofInt_toInt _ (by omega) (by omega)
  have hoc : (BitVec.ofInt 64 (L.ac - L.a0)).toInt = L.ac - L.a0 :=
    ofInt_toInt _ (by omega) (by omega)
  have fa : fits (L.a2 + δ - (BitVec.ofInt 64 (L.a2 - L.a0)).toInt) = true := by
    rw [hp]; exact fits_of _ (by omega) (by omega)
  have fb : fits (L.b2 + δ - (BitVec.ofInt 64 (L.a2 - L.a0)).toInt) = true := by
    rw [hp]; exact fits_of _ (by omega) (by omega)
  have fo : fits (L.a2 + δ - (BitVec.ofInt 64 (L.a2 - L.a0 - (L.ac - L.a0))).toInt) = true := by
    rw [ho]; exact fits_of _ (by omega) (by omega)
  have fo' : fits (L.a2 + δ - (BitVec.ofInt 64 (L.a2 - L.ac)).toInt) = true := by
    rw [ho']; exact fits_of _ (by omega) (by omega)
  have foc : fits (L.a2 + δ - (BitVec.ofInt 64 (L.ac - L.a0)).toInt) = true := by
    rw [hoc]; exact fits_of _ (by omega) (by omega)
  have ea : L.a2 + δ - (L.a2 - L.a0) = L.a0 + δ := by omega
  have eb : L.b2 + δ - (L.a2 - L.a0) = L.b0 + δ := by omega
  have ec : L.a2 + δ - (L.a2 - L.ac) = L.ac + δ := by omega
  rcases k with _ | _ | _ | m | ⟨m, w⟩
  · refine ⟨_, timing_bwd _ O dec e V c wi _ _ _ K h2 h3 fa fb, ?_⟩
    rw [hp, ea, eb]
    simp [Bind.set, Kind.hasCause, Kind.hasValue, Kind.isConst, *]
  · have hv : call exactEnv O O.div (q (q1 - q0)) (.dur (BitVec.ofInt 64 (L.a2 - L.a0)).toInt)
        = some (q s) := by
      have hne : L.a2 - L.a0 ≠ 0 := hinv
      rw [x_div_dur O K.distinct _ _ (by rw [hp]; exact hne), hp,
        show q1 = q0 + s * ((L.a2 - L.a0 : Int) : Rat) from hlaw]
      have : ((L.a2 - L.a0 : Int) : Rat) ≠ 0 := by exact_mod_cast hne
      congr 2; field_simp; ring
    refine ⟨_, speed_bwd _ O dec e V c wi _ _ _ _ _ _ _ _ K h2 h3 fa fb fo hq1 (hq0 rfl)
      (x_sub O K.distinct _ _) hv, ?_⟩
    rw [hp, ho, ea, eb, ec]
    simp [Bind.set, Kind.hasCause, Kind.hasValue, Kind.isConst, *]
  · refine ⟨_, noArg_bwd _ O dec e V c wi _ _ _ _ _ K h2 h3 fa fb fo', ?_⟩
    rw [hp, ho', ea, eb, ec]
    simp [Bind.set, Kind.hasCause, Kind.hasValue, Kind.isConst, *]
  · have hv : call exactEnv O (bwdOp O m) (q q1) (q q0) = some (q s) := by
      cases m
      · rw [show q1 = q0 + s from hlaw, show bwdOp O false = O.sub from rfl, x_sub O K.distinct]
        congr 2; ring
      · have hne : q0 ≠ 0 := hinv
        rw [show q1 = q0 * s from hlaw, show bwdOp O true = O.div from rfl, x_div O K.distinct _ _ hne]
        congr 2; field_simp
    refine ⟨_, cmd_bwd _ O dec e V c wi _ _ _ _ _ _ _ _ K h2 h3 fa fb fo hq1 (hq0 rfl) hv, ?_⟩
    rw [hp, ho, ea, eb, ec]
    simp [Bind.set, Kind.hasCause, Kind.hasValue, Kind.isConst, *]
  · have hv : call exactEnv O (bwdOp O m) (q q1) (.num (dec (float w))) = some (q q0) := by
      rw [show dec (float w) = .fin κ from hk, show Ops.Val.num (.fin κ) = q κ from rfl]
      cases m
      · rw [show q1 = q0 + κ from hlaw, show bwdOp O false = O.sub from rfl, x_sub O K.distinct]
        congr 2; ring
      · have hne : κ ≠ 0 := hinv
        rw [show q1 = q0 * κ from hlaw, show bwdOp O true = O.div from rfl, x_div O K.distinct _ _ hne]
        congr 2; field_simp
    refine ⟨_, const_bwd _ O dec e V c wi _ _ _ _ _ _ _ _ K h2 h3 fa fb foc hq1 hv, ?_⟩
    rw [hp, hoc, ea, eb]
    simp [Bind.set, Kind.hasCause, Kind.hasValue, Kind.isConst, *]

/-! ## Concrete cases -/

def opc0 : Opc := ⟨1, 2, 3, 4⟩
def vars0 : Vars := ⟨0, 1, 2, 3, 4, 5, 6, 7, 8⟩
def code0 : Code := List.replicate 11 0
theorem ok0 : Ok opc0 vars0 code0 10 :=
  ⟨by decide, by decide, by decide, by decide, by decide, by decide⟩
/-- A command lasting from 20 to 120 ms, a premise from 0 to 100 ms, a consequent from 100 to 200 ms. -/
def learnt0 : Learnt := ⟨0, 100000, 20000, 120000, 100000, 200000⟩
def rhs0 : Bind := fun x =>
  if x = 4 then some (.time 100000) else if x = 5 then some (.time 200000) else
  if x = 0 then some (q 1) else if x = 3 then some (q 3) else none
theorem range0 : learnt0.InRange := by unfold Learnt.InRange Instant learnt0; decide

/-- C41 is violated backwards: a command that lasted until 120 ms is recovered as ending at 100 ms,
when the premise did; a model with a constant does not recover the cause's timings at all, and
moves the right-hand side's back instead, from 100 ms to 80 ms. -/
theorem C41_backward_violated : ¬ C41_backward_full ∧
    (∃ e', evalGuards exactEnv opc0 (fun _ => .nan) (build opc0 vars0 (learn learnt0 .noArg) code0 10).1
      bwdGuards rhs0 = some e' ∧ e' 7 = some (.time 20000) ∧ e' 8 = some (.time 100000)) ∧
    (∃ e', evalGuards exactEnv opc0 (fun _ => .fin 2)
      (build opc0 vars0 (learn learnt0 (.const false 0)) code0 10).1 bwdGuards rhs0 = some e' ∧
      e' 7 = none ∧ e' 8 = none ∧ e' 4 = some (.time 80000) ∧ e' 5 = some (.time 100000)) := by
  have h1 := C41_backward_partial opc0 vars0 (fun _ => .nan) code0 10 .noArg learnt0 rhs0 0 0 1 0 3 ok0
    range0 trivial trivial (by decide) (by unfold Instant learnt0; decide) (by unfold Instant learnt0; decide)
    (by unfold Instant learnt0; decide) (by unfold Instant learnt0; decide)
    (by unfold Instant learnt0; decide) rfl rfl (fun _ => rfl) rfl trivial
  have h2 := C41_backward_partial opc0 vars0 (fun _ => .fin 2) code0 10 (.const false 0) learnt0 rhs0 2 0 1 0 3
    ok0 range0 rfl trivial (by decide) (by unfold Instant learnt0; decide) (by unfold Instant learnt0; decide)
    (by unfold Instant learnt0; decide) (by unfold Instant learnt0; decide)
    (by unfold Instant learnt0; decide) rfl rfl (fun h => by cases h) rfl (by show (3 : Rat) = 1 + 2; norm_num)
  obtain ⟨e1, g1, -, -, g4, -⟩ := h1
  obtain ⟨e2, k1, -, -, -, -, -, -, k8⟩ := h2
  obtain ⟨g5, g6⟩ := g4 rfl rfl
  refine ⟨fun hfull => ?_, ⟨e1, g1, g5, g6⟩, ⟨e2, k1, ?_⟩⟩
  · obtain ⟨e', f1, -, -, f4, -⟩ := hfull opc0 vars0 (fun _ => .nan) code0 10 .noArg learnt0 rhs0 0 0 1 0 3 ok0
      range0 trivial trivial (by decide) (by unfold Instant learnt0; decide) (by unfold Instant learnt0; decide)
      (by unfold Instant learnt0; decide) (by unfold Instant learnt0; decide)
      (by unfold Instant learnt0; decide) (by unfold Instant learnt0; decide) rfl rfl (fun _ => rfl) rfl trivial
    rw [g1] at f1
    injection f1 with f1
    have := (f4 rfl).2
    rw [← f1] at this
    have g6' : e1 vars0.s1 = some (.time (learnt0.b0 + 0)) := g6
    rw [this] at g6'
    simp [learnt0] at g6'
  · obtain ⟨k9, k10, k11, k12⟩ := k8 rfl
    exact ⟨k11, k12, k9, k10⟩

/-- C41 is violated by the arithmetic of the machine: adding -1 to 16777220 in single precision gives
16777220, and running backwards gives a command argument of 0. -/
theorem C41_single_precision_violated (E : Env) (hE : E.A = single) (O : Opc) (V : Vars) (dec : Dec)
    (c : Code) (wi : Nat) (K : Ok O V c wi) (p off : BitVec 64) (a b : Int)
    (ha : fits (a + p.toInt) = true) (hb : fits (b + p.toInt) = true)
    (ha' : fits (a - p.toInt) = true) (hb' : fits (b - p.toInt) = true) (hc' : fits (a - off.toInt) = true)
    (e f : Bind) (h0 : e V.t0 = some (.time a)) (h1 : e V.t1 = some (.time b))
    (hq : e V.q0 = some (q 16777220)) (hs : e V.s = some (q (-1)))
    (k2 : f V.t2 = some (.time a)) (k3 : f V.t3 = some (.time b))
    (kq : f V.q0 = some (q 16777220)) (kq1 : f V.q1 = some (q 16777220)) :
    (∃ e', evalGuards E O dec (build O V (.cmd false p off) c wi).1 fwdGuards e = some e' ∧
      e' V.q1 = some (q 16777220)) ∧
    (∃ f', evalGuards E O dec (build O V (.cmd false p off) c wi).1 bwdGuards f = some f' ∧
      f' V.s = some (q 0)) := by
  constructor
  · refine ⟨_, cmd_fwd E O dec e V c wi false p off a b _ _ (q 16777220) K h0 h1 ha hb hq hs ?_, by simp [Bind.set]⟩
    have : fl (16777220 + -1) = 16777220 := by
      rw [show (16777220 : Rat) + -1 = 16777220 - 1 by ring]; exact sub_one_stuck.1
    simp [fwdOp, call_add, add, number, stored, fadd, value, q, hE, single, this, sub_one_stuck.2]
  · refine ⟨_, cmd_bwd E O dec f V c wi false p off a b _ _ (q 0) K k2 k3 ha' hb' hc' kq1 kq ?_, by simp [Bind.set]⟩
    simp [bwdOp, call_sub E O K.distinct, sub, number, stored, fsub, value, q, hE, single, fl, F32.store]

/-- The hypotheses of the theorems above are met by a concrete model, forwards as well. -/
theorem C41_nonvacuous : ∃ e', evalGuards exactEnv opc0 (fun _ => .nan)
    (build opc0 vars0 (learn learnt0 .speed) code0 10).1 fwdGuards
    (fun x => if x = 1 then some (.time 7) else if x = 2 then some (.time 8) else
      if x = 0 then some (q 1) else if x = 6 then some (q (1 / 2)) else none) = some e' ∧
    e' 4 = some (.time 100007) ∧ e' 5 = some (.time 100008) ∧ e' 3 = some (q 50001) := by
  obtain ⟨e', h1, h2, h3, h4, -⟩ := C41_forward opc0 vars0 (fun _ => .nan) code0 10 .speed learnt0
    (fun x => if x = 1 then some (.time 7) else if x = 2 then some (.time 8) else
      if x = 0 then some (q 1) else if x = 6 then some (q (1 / 2)) else none) 0 7 8 1 (1 / 2) 50001 ok0
    range0 trivial (by unfold Instant learnt0 Learnt.period; decide)
    (by unfold Instant learnt0 Learnt.period; decide) rfl rfl rfl rfl
    (by show (50001 : Rat) = 1 + 1 / 2 * ((100000 - 0 : Int) : Rat); norm_num)
  exact ⟨e', h1, h2, h3, h4 rfl⟩

end Verif.Guards
