import Verif.Law.Find
/-!
# C154: the law of a learnt model holds of the change it is learnt from
-/
namespace Verif.Law
open Verif.Atom hiding Val kept
open Verif.Words Verif.Usr

/-- C154 for commands: values of all classes, numbers, vectors and quaternions.  The law found holds of
the change; none is found only if neither the difference nor the quotient is close to an argument. -/
theorem C154_commands_partial {S : Setup} (hK : S.E.K.apart) {N : Nat} (hN : 300 ≤ N) (period : Int) {c0 c1 cause : Code} {h : Word} {v0 v1 : Val}
    (hc : cause[0]? = some h) (hh : asOpcode h = S.G.cmd) (hm : Made S cause)
    (h0 : valueIn S.E.K c0 3 = some v0) (h1 : valueIn S.E.K c1 3 = some v1) (ha : alike v1 v0) :
    ∃ r, find S N period c0 c1 cause = some r ∧ (∀ l, r = some l → Holds S period cause v0 v1 l) ∧
      ((∃ op i a d, (op = .sub ∨ op = .div) ∧ Argument S cause i a ∧ compute S.E.A S.E.K true op v1 v0 = some d ∧ close S.t a d = true) → r ≠ none) := by
  obtain ⟨b, r, a1, a2, a3, a4⟩ := cmdLoop_ok hK hN (.inl rfl) hc hh hm h0 h1 ha
  obtain ⟨b', r', b1, b2, b3, b4⟩ := cmdLoop_ok hK hN (.inr rfl) hc hh hm h0 h1 ha
  have hf : find S N period c0 c1 cause = cmdLaw S N c0 c1 cause := by simp only [find, hc, hh, if_true]
  cases r with
  | some k =>
    refine ⟨some (.addArg k), by rw [hf, cmdLaw, a2], fun l e => ?_, fun _ => by simp⟩
    cases e
    obtain ⟨i, a, d, e1, e2, e3, e4⟩ := a3 k rfl
    exact ⟨i, b, a, d, a1, e1, e2, .inl e3, e4⟩
  | none =>
    cases r' with
    | some k =>
      refine ⟨some (.mulArg k), by rw [hf, cmdLaw, a2, b2], fun l e => ?_, fun _ => by simp⟩
      cases e
      obtain ⟨i, a, d, e1, e2, e3, e4⟩ := b3 k rfl
      exact ⟨i, b', a, d, b1, e1, e2, .inl e3, e4⟩
    | none =>
      refine ⟨none, by rw [hf, cmdLaw, a2, b2], (fun l e => by cases e), ?_⟩
      rintro ⟨op, i, a, d, rfl | rfl, e2, e3, e4⟩
      · rw [a4 rfl i a d e2 e3] at e4; cases e4
      · rw [b4 rfl i a d e2 e3] at e4; cases e4

theorem near_of {t : Match.Tol} {x y : BitVec 32} (h : Match.equal t x y = true) : near t x y = true := by simp [near, h]

theorem word_num {K : Classes} {c : Code} {k : Nat} {x : BitVec 32} (h : valueIn K c k = some (.num x)) :
    ∃ w, c[k]? = some w ∧ isFloat w = true ∧ asFloat w = x := by
  obtain ⟨w, e⟩ : ∃ w, c[k]? = some w := by
    cases e : c[k]? with
    | none => simp [valueIn, e] at h
    | some w => exact ⟨w, rfl⟩
  rcases value_struct h e with ⟨_, z, m1, m2⟩ | ⟨q, _, _, s⟩
  · cases m2
    exact ⟨w, e, (num_some m1).1, (num_some m1).2.1⟩
  · exact absurd rfl ((struct_fit s).2.2 x)

/-- C154 for instances of models and numbers: the law found holds of the change; one is found if the
difference is an argument.  (A quotient among the arguments is missed: see `C154_law_violated`.) -/
theorem C154_instances_partial {S : Setup} (N : Nat) (period : Int) {c0 c1 cause : Code} {h : Word} {x y : BitVec 32}
    (hG : S.G.cmd ≠ S.G.imdl) (hc : cause[0]? = some h) (hh : asOpcode h = S.G.imdl) (hm : Made S cause) (hp : (patternArgs S cause).isSome)
    (h0 : valueIn S.E.K c0 3 = some (.num y)) (h1 : valueIn S.E.K c1 3 = some (.num x)) :
    ∃ r, find S N period c0 c1 cause = some r ∧ (∀ l, r = some l → Holds S period cause (.num y) (.num x) l) ∧
      ((∃ i a, Argument S cause i (.num a) ∧ Match.equal S.t a (S.E.A.sub x y) = true) → ∃ k, r = some (.addArg k)) := by
  obtain ⟨w0, e0, -, rfl⟩ := word_num h0
  obtain ⟨w1, e1, -, rfl⟩ := word_num h1
  have hne : ¬ asOpcode h = S.G.cmd := fun e => hG (e.symm.trans hh)
  obtain ⟨b0, n, hb, hn, -⟩ := hm.args
  have hb' := hb
  simp only [arguments, hc, Option.bind_some, if_neg hne, Option.bind_eq_some_iff, Option.map_eq_some_iff, Prod.mk.injEq] at hb
  obtain ⟨p, p1, s, s1, rfl, rfl⟩ := hb
  obtain ⟨b, hpb⟩ := Option.isSome_iff_exists.mp hp
  have hab : abstracted cause = some b := by
    have := hpb
    simp only [patternArgs, hc, Option.bind_some, if_neg hne, Option.bind_eq_some_iff, Option.map_eq_some_iff] at this
    obtain ⟨p', q1, s', q2, q3⟩ := this
    simp only [abstracted, tplArgs, q1, q2, q3]
  have hf : find S N period c0 c1 cause = imdlLaw S c0 c1 cause := by simp only [find, hc, hh, if_neg (Ne.symm hG), if_true]
  obtain ⟨r, r1, r2, r3⟩ := nums_loop (S := S) (cause := cause) (x := S.E.A.sub (asFloat w1) (asFloat w0)) (getAtomCount s).toNat ((asIndex p).toNat + 1) (by omega)
  cases r with
  | some k =>
    refine ⟨some (.addArg (b + (k - (asIndex p).toNat))), ?_, fun l e => ?_, fun _ => ⟨_, rfl⟩⟩
    · rw [hf]; simp only [imdlLaw, mkValValue, exposedArgs, e0, e1, p1, s1, hab, r1]
    · cases e
      obtain ⟨k1, k2, a, k3, k4⟩ := r2 k rfl
      refine ⟨k - (asIndex p).toNat, b, .num a, _, hpb, rfl, ⟨_, _, hb', by omega, by omega, ?_⟩, .inr ⟨_, _, rfl, rfl, rfl⟩, near_of k4⟩
      rw [show (asIndex p).toNat + (k - (asIndex p).toNat) = k by omega]; exact k3
  | none =>
    have miss : ¬ ∃ i a, Argument S cause i (.num a) ∧ Match.equal S.t a (S.E.A.sub (asFloat w1) (asFloat w0)) = true := by
      rintro ⟨i, a, ⟨b', n', q1, q2, q3, q4⟩, q5⟩
      rw [hb'] at q1
      cases q1
      rw [r3 rfl ((asIndex p).toNat + i) (by omega) (by omega) a q4] at q5
      cases q5
    cases hz : S.E.A.isZero (asFloat w0) with
    | true =>
      refine ⟨none, ?_, (fun l e => by cases e), fun e => absurd e miss⟩
      rw [hf]; simp only [imdlLaw, mkValValue, exposedArgs, e0, e1, p1, s1, hab, r1, hz, if_true]
    | false =>
      by_cases hle : (asIndex p).toNat ≤ (getAtomCount s).toNat
      · obtain ⟨r', r1', r2', -⟩ := nums_loop (S := S) (cause := cause) (x := S.E.A.div (asFloat w1) (asFloat w0)) ((getAtomCount s).toNat - (asIndex p).toNat) ((asIndex p).toNat + 1) (by omega)
        refine ⟨r'.map fun k => .mulArg (k - (asIndex p).toNat + b), ?_, fun l e => ?_, fun e => absurd e miss⟩
        · rw [hf]; simp only [imdlLaw, mkValValue, exposedArgs, e0, e1, p1, s1, hab, r1, hz, r1', Bool.false_eq_true, if_false]
          cases r' <;> rfl
        · cases r' with
          | none => cases e
          | some k =>
            cases e
            obtain ⟨k1, k2, a, k3, k4⟩ := r2' k rfl
            refine ⟨k - (asIndex p).toNat, b, .num a, _, hpb, Nat.add_comm _ _, ⟨_, _, hb', by omega, by omega, ?_⟩, .inr ⟨_, _, rfl, rfl, hz, rfl⟩, near_of k4⟩
            rw [show (asIndex p).toNat + (k - (asIndex p).toNat) = k by omega]; exact k3
      · refine ⟨none, ?_, (fun l e => by cases e), fun e => absurd e miss⟩
        rw [hf]; simp only [imdlLaw, mkValValue, exposedArgs, e0, e1, p1, s1, hab, r1, hz, Bool.false_eq_true, if_false,
          show (getAtomCount s).toNat - (asIndex p).toNat = 0 by omega, firstArg]

/-- C154 for values of numbers caused by a value: a law is always found.  A speed is found only if it is
equal, up to the tolerance, to the change in a microsecond; that is weaker than what the law says, see
`C154_law_violated`. Constants are the quotient or, if the value before is zero, the difference. -/
theorem C154_values_partial {S : Setup} (N : Nat) (period : Int) {c0 c1 cause : Code} {h : Word} {s x y : BitVec 32}
    (hG : S.G.cmd ≠ S.G.mkVal) (hG' : S.G.imdl ≠ S.G.mkVal) (hc : cause[0]? = some h) (hh : asOpcode h = S.G.mkVal)
    (hs : valueIn S.E.K cause 3 = some (.num s)) (h0 : valueIn S.E.K c0 3 = some (.num y)) (h1 : valueIn S.E.K c1 3 = some (.num x)) :
    ∃ l, find S N period c0 c1 cause = some (some l) ∧ (l ≠ .speed → Holds S period cause (.num y) (.num x) l) ∧
      (l = .speed ↔ Match.equal S.t s (S.E.A.div (S.E.A.sub x y) (S.cvt period)) = true) ∧ (∀ k, l ≠ .addArg k ∧ l ≠ .mulArg k) ∧
      (∀ c, l = .addConst c → S.E.A.isZero y = true) := by
  obtain ⟨w, e, f, rfl⟩ := word_num hs
  obtain ⟨w0, e0, -, rfl⟩ := word_num h0
  obtain ⟨w1, e1, -, rfl⟩ := word_num h1
  have hf : find S N period c0 c1 cause = valueLaw S period c0 c1 cause := by simp only [find, hc, hh, if_neg (Ne.symm hG), if_neg (Ne.symm hG'), if_true]
  rw [hf]
  simp only [valueLaw, mkValValue, e, e0, e1, f, if_true]
  by_cases q : Match.equal S.t (asFloat w) (S.E.A.div (S.E.A.sub (asFloat w1) (asFloat w0)) (S.cvt period)) = true
  · exact ⟨.speed, by rw [if_pos q], fun h => absurd rfl h, by simp [q], fun k => by simp, fun c => by simp⟩
  · rw [if_neg q]
    cases hz : S.E.A.isZero (asFloat w0) with
    | true => exact ⟨_, if_pos rfl, fun _ => .inl ⟨_, _, rfl, rfl, rfl⟩, by simp [q], fun k => by simp, fun c _ => rfl⟩
    | false => exact ⟨_, if_neg (by simp), fun _ => .inl ⟨_, _, rfl, rfl, hz, rfl⟩, by simp [q], fun k => by simp, fun c => by simp⟩

/-! ## Where it fails -/

/-- A setting: the tolerance is the default one, 0.00001 (mem.cpp:111); 100 ms are 100000 microseconds. -/
def wS (A : Arith) : Setup :=
  { E := ⟨A, ⟨0x21, 0x22, 0x24, 0x23⟩, fun _ => 0, fun _ => none, fun _ _ _ => none⟩
    O := ⟨1, 2, 3, 4, 5⟩
    oc := ⟨0x10, 0x11, 0x12, 0x13, 0x31, 0x14, 0x32, 0x15, 0x16⟩
    t := ⟨0x3727C5AC, 10000⟩
    G := ⟨0x30, 0x31, 0x32⟩
    cvt := fun d => if d = 100000 then 0x47C35000 else 0 }

/-- What the arithmetic does: 0.5 - 0 = 0.5; 0.5 / 100000 = 0.000005; 0 * 100000 = 0; 6 - 2 = 4;
6 / 2 = 3; for the number x whose bits are those of a pointer to the sixth word, shifted: x - x = 0,
0 / 100000 = 0, x / x = 1; 1 * 1 = 1. -/
structure Sums (A : Arith) : Prop where
  half : A.sub 0x3F000000 0 = 0x3F000000
  slow : A.div 0x3F000000 0x47C35000 = 0x36A7C5AC
  still : A.mul 0 0x47C35000 = 0
  four : A.sub 0x40C00000 0x40000000 = 0x40800000
  three : A.div 0x40C00000 0x40000000 = 0x40400000
  nought : A.sub 0x0800000A 0x0800000A = 0
  zero : A.div 0 0x47C35000 = 0
  one : A.div 0x0800000A 0x0800000A = 0x3F800000
  unit : A.mul 0x3F800000 0x3F800000 = 0x3F800000
  two : A.isZero 0x40000000 = false
  tiny : A.isZero 0x0800000A = false

/-- A value (mk.val object attribute value psln). -/
def val (w : Word) (more : Code) : Code := [object 0x32 4, rPointer 0, rPointer 1, w, float 0x3F800000] ++ more

theorem find_val (A : Arith) (N : Nat) (d : Int) (c0 c1 : Code) (w : Word) (m : Code) :
    find (wS A) N d c0 c1 (val w m) = valueLaw (wS A) d c0 c1 (val w m) := by
  have hc : (val w m)[0]? = some (object 0x32 4) := rfl
  simp only [find, hc]
  rw [if_neg (show ¬ asOpcode (object 0x32 4) = (wS A).G.cmd from (by decide : ¬ asOpcode (object 0x32 4) = 0x30)),
    if_neg (show ¬ asOpcode (object 0x32 4) = (wS A).G.imdl from (by decide : ¬ asOpcode (object 0x32 4) = 0x31)),
    if_pos (show asOpcode (object 0x32 4) = (wS A).G.mkVal from (by decide : asOpcode (object 0x32 4) = 0x32))]

/-- The value goes from 0 to 0.5 in 100 ms while the cause's value is 0: the law found is that the
change is the cause's value times the time. -/
theorem speed_wrong {A : Arith} (hA : Sums A) (N : Nat) :
    find (wS A) N 100000 (val (float 0) []) (val (float 0x3F000000) []) (val (float 0) []) = some (some .speed) ∧
      ¬ Holds (wS A) 100000 (val (float 0) []) (.num 0) (.num 0x3F000000) .speed := by
  constructor
  · have e : Match.equal ⟨0x3727C5AC, 10000⟩ 0 0x36A7C5AC = true := by decide +kernel
    obtain ⟨l, l1, -, l2, -⟩ := C154_values_partial (S := wS A) N 100000 (c0 := val (float 0) []) (c1 := val (float 0x3F000000) []) (cause := val (float 0) [])
      (h := object 0x32 4) (s := 0) (x := 0x3F000000) (y := 0) (by show ¬ (0x30 : BitVec 16) = 0x32; decide) (by show ¬ (0x31 : BitVec 16) = 0x32; decide) rfl
      (by show asOpcode (object 0x32 4) = 0x32; decide) rfl rfl rfl
    have z : (wS A).E.A.div ((wS A).E.A.sub 0x3F000000 0) ((wS A).cvt 100000) = 0x36A7C5AC := by
      rw [show (wS A).E.A = A from rfl, show (wS A).cvt 100000 = 0x47C35000 from rfl, hA.half, hA.slow]
    rw [l1, l2.mpr (by rw [z]; exact e)]
  · rintro ⟨s, x, y, h1, h2, h3, h4⟩
    cases h2; cases h3
    have : valueIn (wS A).E.K (val (float 0) []) 3 = some (.num 0) := by rfl
    rw [this] at h1
    cases h1
    have h5 : near (wS A).t (A.mul 0 0x47C35000) (A.sub 0x3F000000 0) = true := h4
    rw [hA.still, hA.half] at h5
    revert h5
    show near ⟨0x3727C5AC, 10000⟩ 0 0x3F000000 = true → False
    decide +kernel

/-- An instance of a model with no template argument and the argument 3. -/
def inst : Code := [object 0x31 5, rPointer 0, iPointer 6, iPointer 7, boolean true, float 0x3F800000, set 0, set 1, float 0x40400000]

/-- The value goes from 2 to 6 after an instance of a model whose argument is 3: no law is found. -/
theorem quotient_missed {A : Arith} (hA : Sums A) (N : Nat) :
    find (wS A) N 100000 (val (float 0x40000000) []) (val (float 0x40C00000) []) inst = some none ∧
      Argument (wS A) inst 1 (.num 0x40400000) ∧ Ratio (wS A) (.num 0x40C00000) (.num 0x40000000) (.num 0x40400000) := by
  refine ⟨?_, ⟨7, 1, rfl, by decide, by decide, rfl⟩, .inr ⟨_, _, rfl, rfl, hA.two, by rw [show (wS A).E.A = A from rfl, hA.three]⟩⟩
  have f : find (wS A) N 100000 (val (float 0x40000000) []) (val (float 0x40C00000) []) inst = imdlLaw (wS A) (val (float 0x40000000) []) (val (float 0x40C00000) []) inst := by
    have hc : inst[0]? = some (object 0x31 5) := rfl
    simp only [find, hc]
    rw [if_neg (show ¬ asOpcode (object 0x31 5) = (wS A).G.cmd from (by decide : ¬ asOpcode (object 0x31 5) = 0x30)),
      if_pos (show asOpcode (object 0x31 5) = (wS A).G.imdl from (by decide : asOpcode (object 0x31 5) = 0x31))]
  rw [f]
  have i1 : asIndex (iPointer 7) = 7 := by decide
  have i2 : (getAtomCount (set 1)).toNat = 1 := by decide
  have i3 : abstracted inst = some 7 := by decide +kernel
  have i4 : inst[(7 : BitVec 16).toNat]? = some (set 1) := rfl
  simp only [imdlLaw, show (val (float 0x40000000) [])[mkValValue]? = some (float 0x40000000) from rfl, show (val (float 0x40C00000) [])[mkValValue]? = some (float 0x40C00000) from rfl,
    show inst[exposedArgs]? = some (iPointer 7) from rfl, i1, i2, i3, i4, show (wS A).E.A = A from rfl]
  rw [show asFloat (float 0x40C00000) = 0x40C00000 from by decide, show asFloat (float 0x40000000) = 0x40000000 from by decide, hA.four, hA.two]
  have q : firstArg (numMatch (wS A).t inst 0x40800000) 1 8 = some none := by
    show firstArg (numMatch ⟨0x3727C5AC, 10000⟩ inst 0x40800000) 1 8 = some none
    decide +kernel
  rw [show (7 : BitVec 16).toNat + 1 = 8 from rfl, q]
  rfl

/-- A vector goes from (1, 1) to (3, 4) while the cause's value is 7: the law found is that it is
multiplied by 1. -/
theorem vector_wrong {A : Arith} (hA : Sums A) (N : Nat) :
    find (wS A) N 100000 (val (iPointer 5) [object 0x22 2, float 0x3F800000, float 0x3F800000])
        (val (iPointer 5) [object 0x22 2, float 0x40400000, float 0x40800000]) (val (float 0x40E00000) []) = some (some (.mulConst 0x3F800000)) ∧
      ¬ Holds (wS A) 100000 (val (float 0x40E00000) []) (.obj 0x22 [0x3F800000, 0x3F800000]) (.obj 0x22 [0x40400000, 0x40800000]) (.mulConst 0x3F800000) := by
  constructor
  · have e : Match.equal ⟨0x3727C5AC, 10000⟩ 0x40E00000 0 = false := by decide +kernel
    rw [find_val]
    show (if isFloat (float 0x40E00000) then if Match.equal ⟨0x3727C5AC, 10000⟩ (asFloat (float 0x40E00000)) (A.div (A.sub (asFloat (iPointer 5)) (asFloat (iPointer 5))) 0x47C35000) then
      some (some Law.speed) else if A.isZero (asFloat (iPointer 5)) then some (some (.addConst (A.sub (asFloat (iPointer 5)) (asFloat (iPointer 5)))))
      else some (some (.mulConst (A.div (asFloat (iPointer 5)) (asFloat (iPointer 5))))) else some none) = _
    rw [if_pos (by decide), show asFloat (iPointer 5) = 0x0800000A from by decide, hA.nought, hA.zero, show asFloat (float 0x40E00000) = 0x40E00000 from by decide, e, hA.tiny, hA.one]
    rfl
  · rintro (⟨x, y, h, _⟩ | ⟨d, h1, h2⟩)
    · cases h
    · have : compute (wS A).E.A (wS A).E.K true .mul (.obj 0x22 [0x3F800000, 0x3F800000]) (.num 0x3F800000) =
          some (.obj 0x22 [Usr.kept (A.mul 0x3F800000 0x3F800000), Usr.kept (A.mul 0x3F800000 0x3F800000)]) := by rfl
      rw [this, hA.unit] at h1
      cases h1
      revert h2
      show close ⟨0x3727C5AC, 10000⟩ _ _ = true → False
      decide +kernel

/-! ## An arithmetic -/

/-- A table with the sums that `Sums` asks for, to have an instance. -/
def tA : Arith :=
  { add := fun x y => x + y
    sub := fun x y => if x = y then 0 else if y = 0 then x else 0x40800000
    mul := fun x y => if x = 0 ∨ y = 0 then 0 else if y = 0x3F800000 then x else y
    div := fun x y => if x = 0 then 0 else if x = y then 0x3F800000 else if x = 0x3F000000 then 0x36A7C5AC else 0x40400000
    neg := id, sqrt := id, acos := id, hundredth := id
    isZero := fun x => decide (x = 0)
    negative := fun _ => false }

theorem tA_sums : Sums tA := by constructor <;> decide

theorem wS_apart (A : Arith) : (wS A).E.K.apart := by
  have e : (wS A).E.K = ⟨0x21, 0x22, 0x24, 0x23⟩ := rfl
  rw [e]
  refine ⟨by decide, fun k hk => ?_⟩
  simp only [List.mem_cons, List.not_mem_nil, or_false] at hk
  rcases hk with rfl | rfl | rfl | rfl <;> decide

/-- C154 fails: a speed is accepted that does not give the change; a quotient is missed; a vector's
pointers are taken for numbers. -/
theorem C154_law_violated : ¬ C154_full ∧ ∀ A, Sums A →
    (∀ N, find (wS A) N 100000 (val (float 0) []) (val (float 0x3F000000) []) (val (float 0) []) = some (some .speed) ∧
      ¬ Holds (wS A) 100000 (val (float 0) []) (.num 0) (.num 0x3F000000) .speed) ∧
    (∀ N, find (wS A) N 100000 (val (float 0x40000000) []) (val (float 0x40C00000) []) inst = some none ∧
      Argument (wS A) inst 1 (.num 0x40400000) ∧ Ratio (wS A) (.num 0x40C00000) (.num 0x40000000) (.num 0x40400000)) ∧
    (∀ N, find (wS A) N 100000 (val (iPointer 5) [object 0x22 2, float 0x3F800000, float 0x3F800000])
        (val (iPointer 5) [object 0x22 2, float 0x40400000, float 0x40800000]) (val (float 0x40E00000) []) = some (some (.mulConst 0x3F800000)) ∧
      ¬ Holds (wS A) 100000 (val (float 0x40E00000) []) (.obj 0x22 [0x3F800000, 0x3F800000]) (.obj 0x22 [0x40400000, 0x40800000]) (.mulConst 0x3F800000)) := by
  refine ⟨fun h => ?_, fun A hA => ⟨speed_wrong hA, quotient_missed hA, vector_wrong hA⟩⟩
  have e : asOpcode (object 0x32 4) = (wS tA).G.mkVal := by show asOpcode (object 0x32 4) = 0x32; decide
  obtain ⟨N, hN⟩ := h (wS tA) 100000 (val (float 0) []) (val (float 0x3F000000) []) (val (float 0) []) (.num 0) (.num 0x3F000000) (object 0x32 4) (wS_apart _)
    (by show ¬ (0x30 : BitVec 16) = 0x31; decide) (by show ¬ (0x30 : BitVec 16) = 0x32; decide) (by show ¬ (0x31 : BitVec 16) = 0x32; decide) rfl
    (.inr (.inr e)) (fun h => absurd e h) (fun _ => rfl)
    (fun h => absurd (e.symm.trans h) (by show ¬ (0x32 : BitVec 16) = 0x31; decide)) rfl rfl trivial
  obtain ⟨r, r1, r2, -⟩ := hN N (Nat.le_refl _)
  obtain ⟨s1, s2⟩ := speed_wrong tA_sums N
  rw [s1] at r1
  cases r1
  exact s2 (r2 _ rfl)

/-- A command whose second argument is a vector: (cmd f [7 (vec2 2 3)] psln). -/
def push : Code := [object 0x30 4, rPointer 0, iPointer 5, float 0, float 0x3F800000, set 2, float 0x40E00000, iPointer 8, object 0x22 2, float 0x40400000, float 0x40800000]

theorem made_push (A : Arith) : Made (wS A) push := by
  refine ⟨fun w hw => ?_, fun w hw => ?_, 5, 2, ?_, by decide, fun i h1 h2 w hw => ?_⟩
  · simp only [push, List.mem_cons, List.not_mem_nil, or_false] at hw
    rcases hw with rfl | rfl | rfl | rfl | rfl | rfl | rfl | rfl | rfl | rfl | rfl
    · intro h; revert h; decide
    · intro h; revert h; decide
    · exact fun _ => ⟨by decide, set 2, by decide +kernel, by decide, by decide⟩
    · intro h; revert h; decide
    · intro h; revert h; decide
    · intro h; revert h; decide
    · intro h; revert h; decide
    · exact fun _ => ⟨by decide, object 0x22 2, by decide +kernel, by decide, by decide⟩
    · intro h; revert h; decide
    · intro h; revert h; decide
    · intro h; revert h; decide
  · have := List.all_eq_true.mp (show push.all (fun w => getDescriptor w ≠ 0x82 && getDescriptor w ≠ 0x83 && getDescriptor w ≠ 0x86) = true by decide +kernel) w hw
    simpa [and_assoc] using this
  · show arguments (wS tA) push = some (5, 2)
    decide +kernel
  · rcases (show i = 1 ∨ i = 2 by omega) with rfl | rfl
    · cases hw; decide
    · cases hw; decide

/-- The hypotheses of the theorems are met: a vector that goes from (1, 1) to a place such that the
difference is the vector argument of the command. -/
theorem C154_nonvacuous : ∃ (S : Setup) (c0 c1 cause : Code) (h : Word) (v0 v1 : Val) (d : Val), S.E.K.apart ∧ S.G.cmd ≠ S.G.imdl ∧
    cause[0]? = some h ∧ asOpcode h = S.G.cmd ∧ Made S cause ∧
    valueIn S.E.K c0 3 = some v0 ∧ valueIn S.E.K c1 3 = some v1 ∧ alike v1 v0 ∧ v0 ≠ v1 ∧
    Argument S cause 2 d ∧ compute S.E.A S.E.K true .sub v1 v0 = some d ∧ close S.t d d = true := by
  refine ⟨wS tA, val (iPointer 5) [object 0x22 2, float 0, float 0], val (iPointer 5) [object 0x22 2, float 0x40400000, float 0x40800000], push, object 0x30 4,
    .obj 0x22 [0, 0], .obj 0x22 [0x40400000, 0x40800000], .obj 0x22 [0x40400000, 0x40800000], wS_apart _, by show ¬ (0x30 : BitVec 16) = 0x31; decide, rfl, ?_, made_push _, ?_, ?_, rfl, ?_,
    ⟨5, 2, ?_, by decide, by decide, ?_⟩, ?_, ?_⟩
  all_goals decide +kernel

end Verif.Law
