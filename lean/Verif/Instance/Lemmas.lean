import Verif.Instance.Spec
namespace Verif.Instance
open Verif.Atom Verif.Words Verif.BindMap Verif.Values

/-! ## Sufficient depth -/

/-- `P` holds from some depth on. -/
def Ev (P : Nat → Prop) : Prop := ∃ f, ∀ g, f ≤ g → P g

theorem Ev.of {P : Nat → Prop} (h : ∀ g, P g) : Ev P := ⟨0, fun g _ => h g⟩
theorem Ev.and {P Q : Nat → Prop} (hp : Ev P) (hq : Ev Q) : Ev fun g => P g ∧ Q g := by
  obtain ⟨a, ha⟩ := hp
  obtain ⟨b, hb⟩ := hq
  exact ⟨a + b, fun g hg => ⟨ha g (by omega), hb g (by omega)⟩⟩
theorem Ev.mono {P Q : Nat → Prop} (hp : Ev P) (h : ∀ g, P g → Q g) : Ev Q := by
  obtain ⟨a, ha⟩ := hp
  exact ⟨a, fun g hg => h g (ha g hg)⟩
theorem Ev.succ {P : Nat → Prop} (hp : Ev P) : Ev fun g => ∃ g', g = g' + 1 ∧ P g' := by
  obtain ⟨a, ha⟩ := hp
  exact ⟨a + 1, fun g hg => ⟨g - 1, by omega, ha _ (by omega)⟩⟩
theorem Ev.all {P : Nat → Nat → Prop} (n : Nat) (h : ∀ k, k ≤ n → Ev (P k)) :
    Ev fun g => ∀ k, k ≤ n → P k g := by
  induction n with
  | zero => exact (h 0 (Nat.le_refl _)).mono fun g hg k hk => by obtain rfl : k = 0 := by omega
                                                                 exact hg
  | succ n ih =>
    refine ((ih fun k hk => h k (by omega)).and (h (n + 1) (Nat.le_refl _))).mono fun g hg k hk => ?_
    by_cases hk' : k = n + 1
    · subst hk'; exact hg.2
    · exact hg.1 k (by omega)
theorem Ev.imp {P : Nat → Prop} {A : Prop} (h : A → Ev P) : Ev fun g => A → P g := by
  by_cases ha : A
  · exact (h ha).mono fun g hg _ => hg
  · exact ⟨0, fun g _ h => absurd h ha⟩

/-! ## Writing a value -/

/-- Word `w` of an object with code `c` and references `rs` stands for entry `s`. -/
def Written (c : Code) (rs : List Nat) (w : Word) : Slot → Prop
  | .null => False
  | .unbound u => w = vlPointer (u.setWidth 16)
  | .bound (.atom a) => w = a
  | .bound (.obj r) => ∃ n, n < 4096 ∧ w = rPointer (BitVec.ofNat 16 n) ∧ rs[n]? = some r
  | .bound (.struct v) => ∃ x, x < 4096 ∧ w = ip x ∧ (∀ p, look c x p = look v 0 p) ∧ Plain c x ∧ Whole c x ∧
      ∃ f d' n, n ≤ 4096 ∧ copyStructure c f [] 0 x = some (d', n)

/-- Facts about writing at `write` and from `e` on. -/
structure Wrote (write : Nat) (o : Obj) (e : Nat) (o' : Obj) (e' : Nat) (P : Code → List Nat → Prop) : Prop where
  grows : e ≤ e'
  len : o.code.length ≤ o'.code.length
  wlen : write < o'.code.length
  room : e < e' → e' ≤ o'.code.length
  refs : o.refs <+: o'.refs
  kept : ∀ q, q < e → q ≠ write → q < o.code.length → o'.code[q]? = o.code[q]?
  holds : e' ≤ 4096 → o'.refs.length ≤ 4096 → ∀ c rs,
    (∀ q, q = write ∨ (e ≤ q ∧ q < e') → c[q]? = o'.code[q]?) → o'.refs <+: rs → P c rs

theorem valuate_spec {f : Nat} {s : Slot} {o o' : Obj} {write e e' : Nat}
    (h : valuate f s o write e = some (o', e')) (hs : Storable s) (hw : write < e) :
    Wrote write o e o' e' fun c rs => ∃ w, c[write]? = some w ∧ Written c rs w s := by
  match s with
  | .null => simp [valuate] at h
  | .unbound u =>
    simp only [valuate, Option.some.injEq, Prod.mk.injEq] at h
    obtain ⟨rfl, rfl⟩ := h
    refine ⟨Nat.le_refl _, ?_, ?_, fun h => absurd h (Nat.lt_irrefl _), List.prefix_refl _, ?_, ?_⟩
    · simp only [Obj.put, length_put]; omega
    · simp only [Obj.put, length_put]; omega
    · intro q _ hq hl; exact put_get _ _ _ _ (by omega) hl
    · intro _ _ c rs hc _
      exact ⟨_, by rw [hc write (Or.inl rfl)]; exact put_get_self _ _ _, rfl⟩
  | .bound (.atom w) =>
    simp only [valuate, Option.some.injEq, Prod.mk.injEq] at h
    obtain ⟨rfl, rfl⟩ := h
    refine ⟨Nat.le_refl _, ?_, ?_, fun h => absurd h (Nat.lt_irrefl _), List.prefix_refl _, ?_, ?_⟩
    · simp only [Obj.put, length_put]; omega
    · simp only [Obj.put, length_put]; omega
    · intro q _ hq hl; exact put_get _ _ _ _ (by omega) hl
    · intro _ _ c rs hc _
      exact ⟨_, by rw [hc write (Or.inl rfl)]; exact put_get_self _ _ _, rfl⟩
  | .bound (.obj r) =>
    simp only [valuate, Option.some.injEq, Prod.mk.injEq] at h
    obtain ⟨rfl, rfl⟩ := h
    refine ⟨Nat.le_refl _, ?_, ?_, fun h => absurd h (Nat.lt_irrefl _), List.prefix_append _ _, ?_, ?_⟩
    · simp only [Obj.put, length_put]; omega
    · simp only [Obj.put, length_put]; omega
    · intro q _ hq hl; exact put_get _ _ _ _ (by omega) hl
    · intro _ hr c rs hc hrs
      simp only [List.length_append, List.length_cons, List.length_nil] at hr
      refine ⟨_, by rw [hc write (Or.inl rfl)]; exact put_get_self _ _ _, o.refs.length, by omega, rfl, ?_⟩
      obtain ⟨t, rfl⟩ := hrs
      simp
  | .bound (.struct v) =>
    simp only [valuate, valuateStruct, Option.map_eq_some_iff, Prod.mk.injEq] at h
    obtain ⟨⟨d', x⟩, h1, rfl, rfl⟩ := h
    have C := copyStructure_spec _ _ _ _ _ _ h1 hs.1 hs.2.1
    have hl := length_put o.code write (ip e)
    refine ⟨Nat.le_of_lt C.grows, ?_, ?_, fun _ => C.room, List.prefix_refl _, ?_, ?_⟩
    · have := C.len; simp only; omega
    · have := C.len; simp only; omega
    · intro q hq hne hlt
      simp only
      rw [C.kept q hq (by omega)]
      exact put_get _ _ _ _ (by omega) hlt
    · intro h4 _ c rs hc _
      have g := C.grows
      simp only at hc h4
      obtain ⟨s1, s2, s3, s4⟩ := C.same h4 c (fun q h1 h2 => hc q (Or.inr ⟨h1, h2⟩))
      obtain ⟨n, hn, hen⟩ := size_of_copy h1
      rw [hn] at s4
      obtain ⟨d2, hd2⟩ := copy_of_size s4 [] 0
      refine ⟨ip e, ?_, e, by omega, rfl, s1, s2, s3, f, d2, 0 + n, by omega, hd2⟩
      rw [hc write (Or.inl rfl), C.kept write hw (by omega), put_get_self]

theorem valuate_total {s : Slot} (hs : Storable s) : Ev fun f => ∀ o write e, (valuate f s o write e).isSome := by
  match s, hs with
  | .unbound u, _ => exact Ev.of fun g o write e => rfl
  | .bound (.atom w), _ => exact Ev.of fun g o write e => rfl
  | .bound (.obj r), _ => exact Ev.of fun g o write e => rfl
  | .bound (.struct v), hs =>
    obtain ⟨f, hf⟩ := copyStructure_total hs.1 hs.2.1
    refine ⟨f, fun g hg o write e => ?_⟩
    simp only [valuate, valuateStruct, Option.isSome_map]
    exact hf g hg _ _

/-! ## Reading a value -/

/-- Entry `v` of `m'` holds what it holds in `m`. -/
def SameAt (m m' : BMap) (v : Nat) : Prop :=
  ∃ s s', m.slots[v]? = some s ∧ m'.slots[v]? = some s' ∧ Same s s'

theorem rp_desc (n : Nat) : getDescriptor (rPointer (BitVec.ofNat 16 n)) = 0x85 := by
  apply BitVec.eq_of_toNat_eq
  rw [getDescriptor_toNat, rPointer, ptr_toNat]
  have h : Ty.num .R_PTR = 133 := by decide
  rw [h, BitVec.toNat_ofNat]
  show _ = 133
  omega

theorem rp_ix (n : Nat) (h : n < 4096) : (asIndex (rPointer (BitVec.ofNat 16 n))).toNat = n := by
  rw [rPointer, asIndex_toNat, ptr_toNat, BitVec.toNat_ofNat]
  omega

theorem vp_desc (u : BitVec 16) : getDescriptor (vlPointer u) = 0x86 := by
  apply BitVec.eq_of_toNat_eq
  rw [getDescriptor_toNat, vlPointer, ptr_toNat]
  have h : Ty.num .VL_PTR = 134 := by decide
  rw [h]
  show _ = 134
  omega

/-- The value read where a bound entry was written is the value of the entry. -/
theorem readValue_spec {o : Obj} {w : Word} {v : BindMap.Val} (hs : Storable (.bound v))
    (hw : Written o.code o.refs w (.bound v)) :
    (getDescriptor w ≠ 0x82 ∧ getDescriptor w ≠ 0x83 ∧ getDescriptor w ≠ 0x86) ∧
    Ev fun f => ∃ v', readValue f o w = some v' ∧ Same (.bound v) (.bound v') := by
  match v with
  | .atom a =>
    obtain rfl : w = a := hw
    obtain ⟨h1, h2, h3, h4, h5⟩ := hs
    refine ⟨⟨h1, h2, h5⟩, Ev.of fun g => ⟨.atom w, ?_, rfl⟩⟩
    simp only [readValue, if_neg h4, if_neg h3]
  | .obj r =>
    obtain ⟨n, hn, rfl, hr⟩ := hw
    refine ⟨by rw [rp_desc]; decide, Ev.of fun g => ⟨.obj r, ?_, rfl⟩⟩
    simp only [readValue, if_pos (rp_desc n), ix, rp_ix n hn, hr, Option.map_some]
  | .struct c =>
    obtain ⟨x, hx, rfl, hl, hp, hwh, f, d', n, hn, hr⟩ := hw
    refine ⟨by rw [ip_ptr]; decide, f, fun g hg => ⟨.struct d', ?_, ?_⟩⟩
    · have : getDescriptor (ip x) ≠ 0x85 := by rw [ip_ptr]; decide
      simp only [readValue, if_neg this, if_pos (ip_ptr x), ix, ix_ip x hx, structureValue,
        copyStructure_mono' hr g hg, Option.map_some]
    · have C := copyStructure_spec _ _ _ _ _ _ hr hp hwh
      intro p
      rw [(C.same hn d' (fun _ _ _ => rfl)).1 p, hl p]

/-! ## The template arguments -/

/-- The structure at `e` of an instance is the one at `i` of the model or state, with the values of the
variables. -/
inductive Inst (hlp : Code) (m : BMap) (c : Code) (rs : List Nat) : Nat → Nat → Prop
  | mk {i e : Nat} {h : Word} (hh : hlp[i]? = some h) (hc : c[e]? = some h)
      (hall : ∀ k, 1 ≤ k → k ≤ count h → ∃ a w, hlp[i + k]? = some a ∧ c[e + k]? = some w ∧
        (getDescriptor a = 0x84 → getDescriptor w = 0x84) ∧
        (getDescriptor a = 0x86 → ∃ v, m.slots[(asIndex a).toNat]? = some (.bound v) ∧
          Written c rs w (.bound v)))
      (hrec : ∀ k a w, 1 ≤ k → k ≤ count h → hlp[i + k]? = some a → c[e + k]? = some w →
        getDescriptor a = 0x84 → Inst hlp m c rs (asIndex a).toNat (asIndex w).toNat) : Inst hlp m c rs i e

/-- What is written for member `a`. -/
def MemberOk (hlp : Code) (m : BMap) (c : Code) (rs : List Nat) (a w : Word) : Prop :=
  (getDescriptor a = 0x84 → getDescriptor w = 0x84 ∧ Inst hlp m c rs (asIndex a).toNat (asIndex w).toNat) ∧
  (getDescriptor a = 0x86 → ∃ v, m.slots[(asIndex a).toNat]? = some (.bound v) ∧ Written c rs w (.bound v))

/-- What is needed for that. -/
def MemberHyp (ti : Word) (hlp : Code) (m : BMap) (isTi : Bool) (a : Word) : Prop :=
  (getDescriptor a = 0x84 → AllBound ti m hlp (asIndex a).toNat) ∧
  (getDescriptor a = 0x86 → isTi = false ∧ ∃ v, m.slots[(asIndex a).toNat]? = some (.bound v))

/-- Facts about a built structure. -/
structure Built (ti : Word) (hlp : Code) (m : BMap) (i : Nat) (o : Obj) (e : Nat) (o' : Obj) (e' : Nat) : Prop where
  grows : e < e'
  len : o.code.length ≤ o'.code.length
  room : e' ≤ o'.code.length
  refs : o.refs <+: o'.refs
  kept : ∀ q, q < e → q < o.code.length → o'.code[q]? = o.code[q]?
  holds : e' ≤ 4096 → o'.refs.length ≤ 4096 → ∀ c rs,
    (∀ q, e ≤ q → q < e' → c[q]? = o'.code[q]?) → o'.refs <+: rs →
      AllBound ti m hlp i → Inst hlp m c rs i e

theorem put_len (o : Obj) (i : Nat) (w : Word) : (o.put i w).code.length = max o.code.length (i + 1) :=
  length_put _ _ _
theorem put_refs (o : Obj) (i : Nat) (w : Word) : (o.put i w).refs = o.refs := rfl
theorem put_self (o : Obj) (i : Nat) (w : Word) : (o.put i w).code[i]? = some w := put_get_self _ _ _
theorem put_ne (o : Obj) {i q : Nat} (w : Word) (h : q ≠ i) (hl : q < o.code.length) :
    (o.put i w).code[q]? = o.code[q]? := put_get _ _ _ _ (fun e => h e.symm) hl

theorem prefix_trans {l1 l2 l3 : List Nat} (h : l1 <+: l2) (h' : l2 <+: l3) : l1 <+: l3 := h.trans h'

theorem buildMembers_spec {ti : Word} {m : BMap} {hlp : Code} {f : Nat} {isTi : Bool}
    (hgood : ∀ (v : Nat) s, m.slots[v]? = some s → Storable s)
    (ih : ∀ o e i o' e', buildStructure ti m hlp f o e i = some (o', e') →
      (∃ n, Args n hlp i) → Built ti hlp m i o e o' e') :
    ∀ k from_ write o e o' e',
      buildMembers f m (buildStructure ti m hlp f) hlp isTi k from_ write o e = some (o', e') →
      write + k ≤ e →
      (∀ j a, j < k → hlp[from_ + j]? = some a →
        getDescriptor a = 0x84 → ∃ n, Args n hlp (asIndex a).toNat) →
      e ≤ e' ∧ o.code.length ≤ o'.code.length ∧ (e < e' → e' ≤ o'.code.length) ∧
      (0 < k → write + k ≤ o'.code.length) ∧ o.refs <+: o'.refs ∧
      (∀ q, q < o.code.length → (q < write ∨ (write + k ≤ q ∧ q < e)) → o'.code[q]? = o.code[q]?) ∧
      (e' ≤ 4096 → o'.refs.length ≤ 4096 → ∀ c rs,
        (∀ q, (write ≤ q ∧ q < write + k) ∨ (e ≤ q ∧ q < e') → c[q]? = o'.code[q]?) → o'.refs <+: rs →
        ∀ j, j < k → ∃ a w, hlp[from_ + j]? = some a ∧ c[write + j]? = some w ∧
          (MemberHyp ti hlp m isTi a → MemberOk hlp m c rs a w)) := by
  intro k
  induction k with
  | zero =>
    intro from_ write o e o' e' h _ _
    simp only [buildMembers, Option.some.injEq, Prod.mk.injEq] at h
    obtain ⟨rfl, rfl⟩ := h
    exact ⟨Nat.le_refl _, Nat.le_refl _, fun h => absurd h (Nat.lt_irrefl _), fun h => absurd h (Nat.lt_irrefl _),
      List.prefix_refl _, fun _ _ _ => rfl, fun _ _ c rs _ _ j hj => absurd hj (Nat.not_lt_zero _)⟩
  | succ k ihk =>
    intro from_ write o e o' e' h hwe hmem
    simp only [buildMembers] at h
    cases ha : hlp[from_]? with
    | none => rw [ha] at h; simp at h
    | some a =>
      rw [ha] at h
      simp only at h
      have hm84 := hmem 0 a (by omega) (by simpa using ha)
      have hd : ∃ o1 e1, Wrote write o e o1 e1 (fun c rs => ∃ w, c[write]? = some w ∧
            (MemberHyp ti hlp m isTi a → MemberOk hlp m c rs a w)) ∧
          buildMembers f m (buildStructure ti m hlp f) hlp isTi k (from_ + 1) (write + 1) o1 e1 = some (o', e') := by
        by_cases hv : getDescriptor a = 0x86 ∧ isTi = false
        · rw [if_pos hv] at h
          cases hsl : m.slots[(asIndex a).toNat]? with
          | none => rw [show ix a = (asIndex a).toNat from rfl, hsl] at h; simp at h
          | some s =>
            rw [show ix a = (asIndex a).toNat from rfl, hsl] at h
            simp only [Option.bind_eq_some_iff] at h
            obtain ⟨⟨o1, e1⟩, h1, h2⟩ := h
            have W := valuate_spec h1 (hgood _ _ hsl) (by omega)
            refine ⟨o1, e1, ⟨W.grows, W.len, W.wlen, W.room, W.refs, W.kept, fun h4 hr c rs hc hrs => ?_⟩, h2⟩
            obtain ⟨w, hw, hwr⟩ := W.holds h4 hr c rs hc hrs
            refine ⟨w, hw, fun hm => ⟨fun hd => absurd (hv.1.symm.trans hd) (by decide), fun _ => ?_⟩⟩
            obtain ⟨_, v, hb⟩ := hm.2 hv.1
            rw [hsl] at hb
            obtain rfl := Option.some.inj hb
            exact ⟨v, hsl, hwr⟩
        · rw [if_neg hv] at h
          by_cases hp : isPtr a = true
          · rw [if_pos hp, Option.bind_eq_some_iff] at h
            obtain ⟨⟨o1, e1⟩, h1, h2⟩ := h
            have hd : getDescriptor a = 0x84 := (isPtr_iff a).1 hp
            have B := ih _ _ _ _ _ h1 (hm84 hd)
            have hl := put_len o write (ip e)
            have g := B.grows
            have l := B.len
            refine ⟨o1, e1, ⟨by omega, by omega, by omega, fun _ => B.room, B.refs, ?_, ?_⟩, h2⟩
            · intro q hq hne hlt
              rw [B.kept q hq (by omega), put_ne o _ hne hlt]
            · intro h4 hr c rs hc hrs
              refine ⟨ip e, ?_, fun hm => ⟨fun _ => ⟨ip_ptr e, ?_⟩, fun hd' => absurd (hd.symm.trans hd') (by decide)⟩⟩
              · rw [hc write (Or.inl rfl), B.kept write (by omega) (by omega), put_self]
              · rw [ix_ip e (by omega)]
                exact B.holds h4 hr c rs (fun q h1 h2 => hc q (Or.inr ⟨h1, h2⟩)) hrs (hm.1 hd)
          · rw [if_neg hp] at h
            have hd : getDescriptor a ≠ 0x84 := fun h => hp ((isPtr_iff a).2 h)
            have hl := put_len o write a
            refine ⟨o.put write a, e, ⟨Nat.le_refl _, by omega, by omega, fun h => absurd h (Nat.lt_irrefl _),
              List.prefix_refl _, fun q _ hne hlt => put_ne o _ hne hlt, ?_⟩, h⟩
            intro _ _ c rs hc _
            exact ⟨a, by rw [hc write (Or.inl rfl), put_self], fun hm => ⟨fun h => absurd h hd,
              fun h => absurd ⟨h, (hm.2 h).1⟩ hv⟩⟩
      obtain ⟨o1, e1, W, h2⟩ := hd
      have g := W.grows
      have l := W.len
      have wl := W.wlen
      have rm := W.room
      obtain ⟨q1, q2, q3, q4, q5, q6, q7⟩ := ihk (from_ + 1) (write + 1) o1 e1 o' e' h2 (by omega)
        (fun j a' hj ha' => hmem (j + 1) a' (by omega) (by rw [← ha']; congr 1; omega))
      refine ⟨by omega, by omega, fun _ => ?_, fun _ => ?_, prefix_trans W.refs q5, ?_, ?_⟩
      · by_cases he : e1 < e'
        · exact q3 he
        · have := rm (by omega); omega
      · by_cases hk : 0 < k
        · have := q4 hk; omega
        · omega
      · intro q hq hor
        rw [q6 q (by omega) (by omega), W.kept q (by omega) (by omega) hq]
      · intro h4 hr c rs hc hrs j hj
        by_cases hj0 : j = 0
        · subst hj0
          have hrl := q5.length_le
          obtain ⟨w, hw, hok⟩ := W.holds (by omega) (by omega) c rs (by
            intro q hq
            rw [hc q (by omega)]
            rcases hq with rfl | ⟨h1, h2⟩
            · exact q6 q (by omega) (by omega)
            · exact q6 q (by have := rm (by omega); omega) (by omega)) (prefix_trans q5 hrs)
          exact ⟨a, w, by simpa using ha, by simpa using hw, hok⟩
        · obtain ⟨a', w, h5, h6, h7⟩ := q7 h4 hr c rs (fun q hq => hc q (by omega)) hrs (j - 1) (by omega)
          refine ⟨a', w, ?_, ?_, h7⟩
          · rw [← h5]; congr 1; omega
          · rw [← h6]; congr 1; omega

theorem buildStructure_spec {ti : Word} {m : BMap} {hlp : Code}
    (hgood : ∀ (v : Nat) s, m.slots[v]? = some s → Storable s) :
    ∀ f o e i o' e', buildStructure ti m hlp f o e i = some (o', e') →
      (∃ n, Args n hlp i) → Built ti hlp m i o e o' e' := by
  intro f
  induction f with
  | zero => intro o e i o' e' h; simp [buildStructure] at h
  | succ f ih =>
    intro o e i o' e' h hargs
    obtain ⟨n, hh, hnp, hall, hraw, hvar, hsub⟩ := hargs
    rename_i w
    simp only [buildStructure, hh] at h
    have hl := put_len o e w
    obtain ⟨q1, q2, q3, q4, q5, q6, q7⟩ := buildMembers_spec hgood ih _ _ _ _ _ _ _ h (by omega)
      (by
        intro j a hj ha
        rw [Nat.add_assoc] at ha
        exact fun hd => ⟨n, hsub (1 + j) a (by omega) (by omega) ha hd⟩)
    refine ⟨by omega, by omega, ?_, q5, ?_, ?_⟩
    · by_cases he : e + 1 + count w < e'
      · exact q3 he
      · by_cases h0 : 0 < count w
        · have := q4 h0; omega
        · omega
    · intro q hq hlt
      rw [q6 q (by omega) (by omega), put_ne o _ (by omega) hlt]
    · intro h4 hr c rs hc hrs hab
      obtain ⟨hh', hvar', hsub'⟩ := hab
      rename_i w'
      rw [hh] at hh'
      obtain rfl : w = w' := by simpa using hh'
      have hm : ∀ j, j < count w → ∃ a w', hlp[i + 1 + j]? = some a ∧ c[e + 1 + j]? = some w' ∧
          MemberOk hlp m c rs a w' := by
        intro j hj
        obtain ⟨a, w', ha, hw', hok⟩ := q7 h4 hr c rs (fun q hq => hc q (by omega) (by omega)) hrs j hj
        refine ⟨a, w', ha, hw', hok ⟨fun hd => ?_, fun hd => ?_⟩⟩
        · exact hsub' (1 + j) a (by omega) (by omega) (by rw [← ha, Nat.add_assoc]) hd
        · obtain ⟨h1, h2⟩ := hvar' (1 + j) a (by omega) (by omega) (by rw [← ha, Nat.add_assoc]) hd
          exact ⟨by simpa using h1, h2⟩
      refine Inst.mk hh ?_ ?_ ?_
      · rw [hc e (by omega) (by omega), q6 e (by omega) (by omega), put_self]
      · intro k h1 h2
        obtain ⟨a, w', ha, hw', hok⟩ := hm (k - 1) (by omega)
        refine ⟨a, w', ?_, ?_, fun hd => (hok.1 hd).1, hok.2⟩
        · rw [← ha]; congr 1; omega
        · rw [← hw']; congr 1; omega
      · intro k a w' h1 h2 ha hw' hd
        obtain ⟨a2, w2, ha2, hw2, hok⟩ := hm (k - 1) (by omega)
        have e1 : i + 1 + (k - 1) = i + k := by omega
        have e2 : e + 1 + (k - 1) = e + k := by omega
        rw [e1, ha] at ha2
        rw [e2, hw'] at hw2
        obtain rfl : a = a2 := by simpa using ha2
        obtain rfl : w' = w2 := by simpa using hw2
        exact (hok.1 hd).2

theorem buildMembers_total {ti : Word} {m : BMap} {hlp : Code} {f : Nat} {isTi : Bool} :
    ∀ k from_ write o e,
      (∀ j, j < k → ∃ a, hlp[from_ + j]? = some a ∧
        (getDescriptor a = 0x84 → ∀ o e, (buildStructure ti m hlp f o e (asIndex a).toNat).isSome) ∧
        (getDescriptor a = 0x86 → ∃ s, m.slots[(asIndex a).toNat]? = some s ∧
          ∀ o w e, (valuate f s o w e).isSome)) →
      (buildMembers f m (buildStructure ti m hlp f) hlp isTi k from_ write o e).isSome := by
  intro k
  induction k with
  | zero => intro from_ write o e _; rfl
  | succ k ih =>
    intro from_ write o e h
    obtain ⟨a, ha, hp, hv⟩ := h 0 (by omega)
    rw [Nat.add_zero] at ha
    have hr : ∀ j, j < k → ∃ a, hlp[from_ + 1 + j]? = some a ∧
        (getDescriptor a = 0x84 → ∀ o e, (buildStructure ti m hlp f o e (asIndex a).toNat).isSome) ∧
        (getDescriptor a = 0x86 → ∃ s, m.slots[(asIndex a).toNat]? = some s ∧
          ∀ o w e, (valuate f s o w e).isSome) := by
      intro j hj
      obtain ⟨a, h1, h2⟩ := h (j + 1) (by omega)
      exact ⟨a, by rw [← h1]; congr 1; omega, h2⟩
    simp only [buildMembers, ha]
    by_cases h86 : getDescriptor a = 0x86 ∧ isTi = false
    · rw [if_pos h86]
      obtain ⟨s, hs, hvt⟩ := hv h86.1
      rw [show ix a = (asIndex a).toNat from rfl, hs]
      simp only
      obtain ⟨r, hr2⟩ := Option.isSome_iff_exists.1 (hvt o write e)
      rw [hr2]
      exact ih _ _ _ _ hr
    · rw [if_neg h86]
      by_cases h84 : isPtr a = true
      · rw [if_pos h84]
        obtain ⟨r, hr2⟩ := Option.isSome_iff_exists.1 (hp ((isPtr_iff a).1 h84) (o.put write (ip e)) e)
        rw [show ix a = (asIndex a).toNat from rfl, hr2]
        exact ih _ _ _ _ hr
      · rw [if_neg h84]
        exact ih _ _ _ _ hr

theorem buildStructure_total {ti : Word} {m : BMap} {hlp : Code} {n i : Nat}
    (hgood : ∀ (v : Nat) s, m.slots[v]? = some s → Storable s)
    (hn : n ≤ m.slots.length) (ha : Args n hlp i) :
    Ev fun f => ∀ o e, (buildStructure ti m hlp f o e i).isSome := by
  induction ha with
  | @mk i h hh hnp hall hraw hvar hsub ih =>
    have h1 : Ev fun f => ∀ k, k ≤ count h → 1 ≤ k → ∃ a, hlp[i + k]? = some a ∧
        (getDescriptor a = 0x84 → ∀ o e, (buildStructure ti m hlp f o e (asIndex a).toNat).isSome) ∧
        (getDescriptor a = 0x86 → ∃ s, m.slots[(asIndex a).toNat]? = some s ∧
          ∀ o w e, (valuate f s o w e).isSome) := by
      refine Ev.all _ fun k hk => Ev.imp fun h1 => ?_
      have hlt : i + k < hlp.length := by omega
      have hg := List.getElem?_eq_getElem hlt
      generalize hlp[i + k] = a at hg
      have E1 : Ev fun f => getDescriptor a = 0x84 →
          ∀ o e, (buildStructure ti m hlp f o e (asIndex a).toNat).isSome :=
        Ev.imp fun hd => ih k a h1 hk hg hd
      have E2 : Ev fun f => getDescriptor a = 0x86 → ∃ s, m.slots[(asIndex a).toNat]? = some s ∧
          ∀ o w e, (valuate f s o w e).isSome := by
        refine Ev.imp fun hd => ?_
        have hv : (asIndex a).toNat < m.slots.length := by
          have := hvar k a h1 hk hg hd; omega
        have hs := List.getElem?_eq_getElem hv
        exact (valuate_total (hgood _ _ hs)).mono fun g hg => ⟨_, hs, hg⟩
      exact (E1.and E2).mono fun g hgg => ⟨a, hg, hgg⟩
    refine h1.succ.mono fun g hg o e => ?_
    obtain ⟨g', rfl, hg'⟩ := hg
    simp only [buildStructure, hh]
    refine buildMembers_total _ _ _ _ _ fun j hj => ?_
    obtain ⟨a, h2⟩ := hg' (1 + j) (by omega) (by omega)
    exact ⟨a, by rw [Nat.add_assoc]; exact h2⟩

end Verif.Instance
