import Verif.Instance.Lemmas
namespace Verif.Instance
open Verif.Atom Verif.Words Verif.BindMap Verif.Values

/-! ## The exposed arguments, written -/

/-- The exposed arguments from `at_` on: `k` entries from `i` on, without the first timings. -/
def ExposedAt (m : BMap) (c : Code) (rs : List Nat) : Nat → Nat → Nat → Prop
  | 0, _, _ => True
  | k + 1, i, at_ =>
    if isFwd m i then ExposedAt m c rs k (i + 1) at_
    else (∃ s w, m.slots[i]? = some s ∧ c[at_]? = some w ∧ Written c rs w s) ∧
      ExposedAt m c rs k (i + 1) (at_ + 1)

/-- The number of entries written. -/
def nonFwd (m : BMap) : Nat → Nat → Nat
  | 0, _ => 0
  | k + 1, i => if isFwd m i then nonFwd m k (i + 1) else nonFwd m k (i + 1) + 1

theorem nonFwd_count {m : BMap} {a b : Nat} (ha : m.fwdAfter = (a : Int)) (hb : m.fwdBefore = (b : Int))
    (hab : a ≠ b) : ∀ k i, nonFwd m k i + (if i ≤ a ∧ a < i + k then 1 else 0) +
      (if i ≤ b ∧ b < i + k then 1 else 0) = k := by
  intro k
  induction k with
  | zero => intro i; simp only [nonFwd]; rw [if_neg (by omega), if_neg (by omega)]
  | succ k ih =>
    intro i
    have h := ih (i + 1)
    by_cases hf : isFwd m i = true
    · simp only [nonFwd, if_pos hf]
      simp only [isFwd, ha, hb, Bool.or_eq_true, beq_iff_eq] at hf
      split at h <;> split at h <;> split <;> split <;> omega
    · simp only [nonFwd, if_neg hf]
      simp only [isFwd, ha, hb, Bool.or_eq_true, beq_iff_eq] at hf
      split at h <;> split at h <;> split <;> split <;> omega

theorem buildExposed_spec {f : Nat} {m : BMap} (hgood : ∀ (v : Nat) s, m.slots[v]? = some s → Storable s) :
    ∀ k i write o e o' e', buildExposed f m k i write o e = some (o', e') → write + nonFwd m k i ≤ e →
      e ≤ e' ∧ o.code.length ≤ o'.code.length ∧ (e < e' → e' ≤ o'.code.length) ∧
      (0 < nonFwd m k i → write + nonFwd m k i ≤ o'.code.length) ∧ o.refs <+: o'.refs ∧
      (∀ q, q < o.code.length → (q < write ∨ (write + nonFwd m k i ≤ q ∧ q < e)) → o'.code[q]? = o.code[q]?) ∧
      (e' ≤ 4096 → o'.refs.length ≤ 4096 → ∀ c rs,
        (∀ q, (write ≤ q ∧ q < write + nonFwd m k i) ∨ (e ≤ q ∧ q < e') → c[q]? = o'.code[q]?) →
        o'.refs <+: rs → ExposedAt m c rs k i write) := by
  intro k
  induction k with
  | zero =>
    intro i write o e o' e' h _
    simp only [buildExposed, Option.some.injEq, Prod.mk.injEq] at h
    obtain ⟨rfl, rfl⟩ := h
    exact ⟨Nat.le_refl _, Nat.le_refl _, fun h => absurd h (Nat.lt_irrefl _), fun h => absurd h (Nat.lt_irrefl _),
      List.prefix_refl _, fun _ _ _ => rfl, fun _ _ c rs _ _ => trivial⟩
  | succ k ihk =>
    intro i write o e o' e' h hwe
    simp only [buildExposed] at h
    by_cases hf : isFwd m i = true
    · rw [if_pos hf] at h
      simp only [nonFwd, if_pos hf] at hwe ⊢
      simp only [ExposedAt, if_pos hf]
      exact ihk _ _ _ _ _ _ h hwe
    · rw [if_neg hf] at h
      simp only [nonFwd, if_neg hf] at hwe ⊢
      cases hs : m.slots[i]? with
      | none => rw [hs] at h; simp at h
      | some s =>
        rw [hs] at h
        simp only [Option.bind_eq_some_iff] at h
        obtain ⟨⟨o1, e1⟩, h1, h2⟩ := h
        have W := valuate_spec h1 (hgood _ _ hs) (by omega)
        have g := W.grows
        have l := W.len
        have wl := W.wlen
        have rm := W.room
        obtain ⟨q1, q2, q3, q4, q5, q6, q7⟩ := ihk (i + 1) (write + 1) o1 e1 o' e' h2 (by omega)
        refine ⟨by omega, by omega, fun _ => ?_, fun _ => ?_, prefix_trans W.refs q5, ?_, ?_⟩
        · by_cases he : e1 < e'
          · exact q3 he
          · have := rm (by omega); omega
        · by_cases hk : 0 < nonFwd m k (i + 1)
          · have := q4 hk; omega
          · omega
        · intro q hq hor
          rw [q6 q (by omega) (by omega), W.kept q (by omega) (by omega) hq]
        · intro h4 hr c rs hc hrs
          have hrl := q5.length_le
          simp only [ExposedAt, if_neg hf]
          constructor
          · obtain ⟨w, hw, hok⟩ := W.holds (by omega) (by omega) c rs (by
              intro q hq
              rw [hc q (by omega)]
              rcases hq with rfl | ⟨h1, h2⟩
              · exact q6 q (by omega) (by omega)
              · exact q6 q (by have := rm (by omega); omega) (by omega)) (prefix_trans q5 hrs)
            exact ⟨s, w, hs, hw, hok⟩
          · exact q7 h4 hr c rs (fun q hq => hc q (by omega)) hrs

theorem buildExposed_total {m : BMap} (hgood : ∀ (v : Nat) s, m.slots[v]? = some s → Storable s) :
    ∀ k i, i + k ≤ m.slots.length → Ev fun f => ∀ write o e, (buildExposed f m k i write o e).isSome := by
  intro k
  induction k with
  | zero => intro i _; exact Ev.of fun _ _ _ _ => rfl
  | succ k ih =>
    intro i hi
    have hs := List.getElem?_eq_getElem (show i < m.slots.length by omega)
    refine ((ih (i + 1) (by omega)).and (valuate_total (hgood _ _ hs))).mono fun g hg write o e => ?_
    simp only [buildExposed]
    by_cases hf : isFwd m i = true
    · rw [if_pos hf]; exact hg.1 _ _ _
    · rw [if_neg hf, hs]
      simp only
      obtain ⟨r, hr⟩ := Option.isSome_iff_exists.1 (hg.2 o write e)
      rw [hr]
      exact hg.1 _ _ _

/-! ## Reading back -/

/-- Reading changes no entry but to what it was in `M`. -/
structure Step (M m m' : BMap) : Prop where
  len : m'.slots.length = m.slots.length
  first : m'.first = m.first
  after : m'.fwdAfter = m.fwdAfter
  before : m'.fwdBefore = m.fwdBefore
  each : ∀ v : Nat, m'.slots[v]? = m.slots[v]? ∨ SameAt M m' v

theorem SameAt.of_eq {M m m' : BMap} {v : Nat} (h : SameAt M m v) (e : m'.slots[v]? = m.slots[v]?) :
    SameAt M m' v := by
  obtain ⟨s, s', h1, h2, h3⟩ := h
  exact ⟨s, s', h1, e.trans h2, h3⟩

theorem SameAt.step {M m m' : BMap} {v : Nat} (h : SameAt M m v) (e : Step M m m') : SameAt M m' v := by
  rcases e.each v with h' | h'
  · exact h.of_eq h'
  · exact h'

theorem Step.refl (M m : BMap) : Step M m m := ⟨rfl, rfl, rfl, rfl, fun _ => Or.inl rfl⟩

theorem Step.trans {M m m' m'' : BMap} (h : Step M m m') (h' : Step M m' m'') : Step M m m'' := by
  refine ⟨h'.len.trans h.len, h'.first.trans h.first, h'.after.trans h.after, h'.before.trans h.before, fun v => ?_⟩
  rcases h'.each v with e | e
  · rcases h.each v with e2 | e2
    · exact Or.inl (e.trans e2)
    · exact Or.inr (e2.of_eq e)
  · exact Or.inr e

theorem setSlot_spec {M m : BMap} {v : BindMap.Val} {i : Nat} {s : Slot} (hl : m.slots.length = M.slots.length)
    (hs : M.slots[i]? = some s) (hv : Same s (.bound v)) :
    ∃ m', setSlot m v i = some m' ∧ Step M m m' ∧ SameAt M m' i := by
  have hi : i < m.slots.length := by
    rw [hl]; exact (List.getElem?_eq_some_iff.1 hs).1
  have hg := List.getElem?_eq_getElem hi
  simp only [setSlot, assign, hg]
  refine ⟨_, rfl, ⟨by simp, rfl, rfl, rfl, fun q => ?_⟩, ⟨s, _, hs, ?_, hv⟩⟩
  · by_cases hq : q = i
    · subst hq
      exact Or.inr ⟨s, .bound v, hs, by simp [hi], hv⟩
    · exact Or.inl (by simp [List.getElem?_set_ne (fun e => hq e.symm)])
  · simp [hi]

/-- What reading the structure at `i` of `hlp` with `r` does. -/
def Reads (M : BMap) (hlp : Code) (i : Nat) (r : BMap → Option BMap) : Prop :=
  ∀ m : BMap, m.slots.length = M.slots.length →
    ∃ m', r m = some m' ∧ Step M m m' ∧ ∀ v, Occurs hlp v i → SameAt M m' v

theorem initMembers_spec {M : BMap} {hlp : Code} {o : Obj} {f : Nat} :
    ∀ k i j, (∀ q, q < k → ∃ a w, hlp[i + q]? = some a ∧ o.code[j + q]? = some w ∧
        (getDescriptor a = 0x84 → getDescriptor w = 0x84 ∧
          Reads M hlp (asIndex a).toNat fun m => initArgs hlp o f m (asIndex a).toNat (asIndex w).toNat) ∧
        (getDescriptor a = 0x86 → ∃ v v', M.slots[(asIndex a).toNat]? = some (.bound v) ∧
          readValue f o w = some v' ∧ Same (.bound v) (.bound v'))) →
      ∀ m : BMap, m.slots.length = M.slots.length →
        ∃ m', initMembers f (initArgs hlp o f) hlp o k i j m = some m' ∧ Step M m m' ∧
          ∀ q a, q < k → hlp[i + q]? = some a →
            (getDescriptor a = 0x86 → SameAt M m' (asIndex a).toNat) ∧
            (getDescriptor a = 0x84 → ∀ v, Occurs hlp v (asIndex a).toNat → SameAt M m' v) := by
  intro k
  induction k with
  | zero =>
    intro i j _ m _
    exact ⟨m, rfl, Step.refl _ _, fun q a hq => absurd hq (Nat.not_lt_zero _)⟩
  | succ k ih =>
    intro i j hm m hl
    obtain ⟨a, w, ha, hw, h84, h86⟩ := hm 0 (by omega)
    rw [Nat.add_zero] at ha hw
    have hr := ih (i + 1) (j + 1) fun q hq => by
      obtain ⟨a, w, h1, h2, h3⟩ := hm (q + 1) (by omega)
      exact ⟨a, w, by rw [← h1]; congr 1; omega, by rw [← h2]; congr 1; omega, h3⟩
    have hfin : ∃ m1, Step M m m1 ∧ ((getDescriptor a = 0x86 → SameAt M m1 (asIndex a).toNat) ∧
        (getDescriptor a = 0x84 → ∀ v, Occurs hlp v (asIndex a).toNat → SameAt M m1 v)) ∧
        initMembers f (initArgs hlp o f) hlp o (k + 1) i j m =
          initMembers f (initArgs hlp o f) hlp o k (i + 1) (j + 1) m1 := by
      simp only [initMembers, ha, hw]
      by_cases hp : isPtr a = true
      · have hd := (isPtr_iff a).1 hp
        obtain ⟨hwd, hR⟩ := h84 hd
        obtain ⟨m1, h1, h2, h3⟩ := hR m hl
        refine ⟨m1, h2, ⟨fun h => absurd (hd.symm.trans h) (by decide), fun _ => h3⟩, ?_⟩
        rw [if_pos hp, if_pos ((isPtr_iff w).2 hwd)]
        simp only at h1
        rw [show ix a = (asIndex a).toNat from rfl, show ix w = (asIndex w).toNat from rfl, h1]
        rfl
      · have hd : getDescriptor a ≠ 0x84 := fun h => hp ((isPtr_iff a).2 h)
        rw [if_neg hp]
        by_cases hv : getDescriptor a = 0x86
        · obtain ⟨v, v', hs, hrv, hsm⟩ := h86 hv
          obtain ⟨m1, h1, h2, h3⟩ := setSlot_spec hl hs hsm
          refine ⟨m1, h2, ⟨fun _ => h3, fun h => absurd h hd⟩, ?_⟩
          rw [if_neg (fun h => h hv), hrv]
          simp only [Option.bind_some]
          rw [show ix a = (asIndex a).toNat from rfl, h1]
          rfl
        · exact ⟨m, Step.refl _ _, ⟨fun h => absurd h hv, fun h => absurd h hd⟩, by rw [if_pos hv]⟩
    obtain ⟨m1, s1, hocc, heq⟩ := hfin
    obtain ⟨m', h1, h2, h3⟩ := hr m1 (s1.len.trans hl)
    refine ⟨m', heq.trans h1, s1.trans h2, fun q a' hq ha' => ?_⟩
    by_cases hq0 : q = 0
    · subst hq0
      rw [Nat.add_zero, ha] at ha'
      obtain rfl : a = a' := by simpa using ha'
      exact ⟨fun h => (hocc.1 h).step h2, fun h v hv => (hocc.2 h v hv).step h2⟩
    · exact h3 (q - 1) a' (by omega) (by rw [← ha']; congr 1; omega)

theorem initArgs_spec {M : BMap} {hlp : Code} {o : Obj} {i e : Nat}
    (hgood : ∀ (v : Nat) s, M.slots[v]? = some s → Storable s) (h : Inst hlp M o.code o.refs i e) :
    Ev fun f => Reads M hlp i fun m => initArgs hlp o f m i e := by
  induction h with
  | @mk i e h hh hc hall hrec ih =>
    have E : Ev fun f => ∀ k, k ≤ count h → 1 ≤ k → ∃ a w, hlp[i + k]? = some a ∧ o.code[e + k]? = some w ∧
        (getDescriptor a = 0x84 → getDescriptor w = 0x84 ∧
          Reads M hlp (asIndex a).toNat fun m => initArgs hlp o f m (asIndex a).toNat (asIndex w).toNat) ∧
        (getDescriptor a = 0x86 → ∃ v v', M.slots[(asIndex a).toNat]? = some (.bound v) ∧
          readValue f o w = some v' ∧ Same (.bound v) (.bound v')) := by
      refine Ev.all _ fun k hk => Ev.imp fun h1 => ?_
      obtain ⟨a, w, ha, hw, h84, h86⟩ := hall k h1 hk
      have E1 : Ev fun f => getDescriptor a = 0x84 → getDescriptor w = 0x84 ∧
          Reads M hlp (asIndex a).toNat fun m => initArgs hlp o f m (asIndex a).toNat (asIndex w).toNat :=
        Ev.imp fun hd => (ih k a w h1 hk ha hw hd).mono fun g hg => ⟨h84 hd, hg⟩
      have E2 : Ev fun f => getDescriptor a = 0x86 → ∃ v v', M.slots[(asIndex a).toNat]? = some (.bound v) ∧
          readValue f o w = some v' ∧ Same (.bound v) (.bound v') := by
        refine Ev.imp fun hd => ?_
        obtain ⟨v, hs, hwr⟩ := h86 hd
        refine (readValue_spec (hgood _ _ hs) hwr).2.mono fun g hg => ?_
        obtain ⟨v', h1, h2⟩ := hg
        exact ⟨v, v', hs, h1, h2⟩
      exact (E1.and E2).mono fun g hg => ⟨a, w, ha, hw, hg⟩
    refine E.succ.mono fun g hg m hl => ?_
    obtain ⟨g', rfl, hg'⟩ := hg
    obtain ⟨m', h1, h2, h3⟩ := initMembers_spec (M := M) (hlp := hlp) (o := o) (f := g') (count h) (i + 1) (e + 1)
      (fun q hq => by
        obtain ⟨a, w, hr⟩ := hg' (1 + q) (by omega) (by omega)
        exact ⟨a, w, by rw [Nat.add_assoc, Nat.add_assoc]; exact hr⟩) m hl
    refine ⟨m', ?_, h2, fun v hv => ?_⟩
    · simp only [initArgs, hh, hc]
      rw [if_neg (fun h => h rfl)]
      exact h1
    · cases hv with
      | here hh' k1 k2 ha hd hv =>
        rename_i k h' a
        rw [hh] at hh'
        obtain rfl : h = h' := by simpa using hh'
        have := (h3 (k - 1) a (by omega) (by rw [← ha]; congr 1; omega)).1 hd
        rwa [hv] at this
      | sub hh' k1 k2 ha hd hs =>
        rename_i k h' a
        rw [hh] at hh'
        obtain rfl : h = h' := by simpa using hh'
        exact (h3 (k - 1) a (by omega) (by rw [← ha]; congr 1; omega)).2 hd v hs

theorem initExposed_spec {M : BMap} {o : Obj} (hgood : ∀ (v : Nat) s, M.slots[v]? = some s → Storable s) :
    ∀ k i at_, ExposedAt M o.code o.refs k i at_ → Ev fun f => ∀ m : BMap,
      m.slots.length = M.slots.length → m.fwdAfter = M.fwdAfter → m.fwdBefore = M.fwdBefore →
      (∀ (v : Nat) u, M.slots[v]? = some (Slot.unbound u) → SameAt M m v) →
      ∃ m', initExposed f o k i at_ m = some m' ∧ Step M m m' ∧
        ∀ v, i ≤ v → v < i + k → isFwd M v = false → SameAt M m' v := by
  intro k
  induction k with
  | zero =>
    intro i at_ _
    exact Ev.of fun g m _ _ _ _ => ⟨m, rfl, Step.refl _ _, fun v h1 h2 => by omega⟩
  | succ k ih =>
    intro i at_ h
    by_cases hf : isFwd M i = true
    · simp only [ExposedAt, if_pos hf] at h
      refine (ih _ _ h).mono fun g hg m h1 h2 h3 h4 => ?_
      have hf' : isFwd m i = true := by rw [← hf]; simp only [isFwd, h2, h3]
      obtain ⟨m', r1, r2, r3⟩ := hg m h1 h2 h3 h4
      refine ⟨m', ?_, r2, fun v v1 v2 v3 => ?_⟩
      · simp only [initExposed, if_pos hf']; exact r1
      · by_cases hv : v = i
        · subst hv; rw [hf] at v3; exact absurd v3 (by decide)
        · exact r3 v (by omega) (by omega) v3
    · simp only [ExposedAt, if_neg hf] at h
      obtain ⟨⟨s, w, hs, hw, hwr⟩, hrest⟩ := h
      have E : Ev fun f => ∀ m : BMap, m.slots.length = M.slots.length →
          m.fwdAfter = M.fwdAfter → m.fwdBefore = M.fwdBefore →
          (∀ (v : Nat) u, M.slots[v]? = some (Slot.unbound u) → SameAt M m v) →
          ∃ m1, Step M m m1 ∧ SameAt M m1 i ∧
            initExposed f o (k + 1) i at_ m = initExposed f o k (i + 1) (at_ + 1) m1 := by
        have hsg := hgood _ _ hs
        have hnf : ∀ m : BMap, m.fwdAfter = M.fwdAfter → m.fwdBefore = M.fwdBefore → ¬ isFwd m i = true := by
          intro m h2 h3 h; exact hf (by rw [← h]; simp only [isFwd, h2, h3])
        match s, hsg with
        | .unbound u, _ =>
          refine Ev.of fun g m h1 h2 h3 h4 => ⟨m, Step.refl _ _, h4 i u hs, ?_⟩
          have hw' : w = vlPointer (u.setWidth 16) := hwr
          simp only [initExposed, if_neg (hnf m h2 h3), hw]
          rw [if_pos (Or.inr (Or.inr (by rw [hw']; exact vp_desc _)))]
        | .bound v, hsg =>
          obtain ⟨⟨n1, n2, n3⟩, hE⟩ := readValue_spec hsg hwr
          refine hE.mono fun g hg m h1 h2 h3 h4 => ?_
          obtain ⟨v', hr, hsm⟩ := hg
          obtain ⟨m1, s1, s2, s3⟩ := setSlot_spec h1 hs hsm
          refine ⟨m1, s2, s3, ?_⟩
          simp only [initExposed, if_neg (hnf m h2 h3), hw]
          rw [if_neg (by intro h; rcases h with h | h | h; exacts [n1 h, n2 h, n3 h]), hr]
          simp only [Option.bind_some]
          rw [s1]
          rfl
      refine (E.and (ih _ _ hrest)).mono fun g hg m h1 h2 h3 h4 => ?_
      obtain ⟨m1, s1, s2, heq⟩ := hg.1 m h1 h2 h3 h4
      obtain ⟨m', r1, r2, r3⟩ := hg.2 m1 (s1.len.trans h1) (s1.after.trans h2) (s1.before.trans h3)
        (fun v u hu => (h4 v u hu).step s1)
      refine ⟨m', heq.trans r1, s1.trans r2, fun v v1 v2 v3 => ?_⟩
      by_cases hv : v = i
      · subst hv; exact s2.step r2
      · exact r3 v (by omega) (by omega) v3

theorem initTiming_spec {M : BMap} {fact : Obj} {index a : Nat} {c : Code} {w : Word}
    (hgood : ∀ (v : Nat) s, M.slots[v]? = some s → Storable s)
    (hs : M.slots[a]? = some (.bound (.struct c))) (hw : fact.code[index]? = some w)
    (hwr : Written fact.code fact.refs w (.bound (.struct c))) :
    Ev fun f => ∀ m : BMap, m.slots.length = M.slots.length →
      ∃ m', initTiming f fact index m (a : Int) = some m' ∧ Step M m m' ∧ SameAt M m' a := by
  refine (readValue_spec (hgood _ _ hs) hwr).2.mono fun g hg m hl => ?_
  obtain ⟨v', hr, hsm⟩ := hg
  obtain ⟨x, hx, rfl, -⟩ := hwr
  have h85 : getDescriptor (ip x) ≠ 0x85 := by rw [ip_ptr]; decide
  simp only [readValue, if_neg h85, if_pos (ip_ptr x), Option.map_eq_some_iff] at hr
  obtain ⟨c', hc', rfl⟩ := hr
  obtain ⟨m1, s1, s2, s3⟩ := setSlot_spec hl hs hsm
  refine ⟨m1, ?_, s2, s3⟩
  simp only [initTiming, hw, Option.bind_some, hc', Int.toNat_natCast]
  rw [if_neg (by omega)]
  exact s1

/-! ## The fact -/

theorem buildFact_spec {f : Nat} {m : BMap} {fop : BitVec 16} {fact : Obj} {a b : Nat} {ca cb : Code}
    (h : buildFact f m fop = some fact) (ha : m.fwdAfter = (a : Int)) (hb : m.fwdBefore = (b : Int))
    (hgood : ∀ (v : Nat) s, m.slots[v]? = some s → Storable s)
    (hca : m.slots[a]? = some (.bound (.struct ca))) (hcb : m.slots[b]? = some (.bound (.struct cb)))
    (h4 : fact.code.length ≤ 4096) :
    (∃ w, fact.code[2]? = some w ∧ Written fact.code fact.refs w (.bound (.struct ca))) ∧
    (∃ w, fact.code[3]? = some w ∧ Written fact.code fact.refs w (.bound (.struct cb))) := by
  have sa : slotAt m m.fwdAfter = some (.bound (.struct ca)) := by
    simp only [slotAt, ha, Int.toNat_natCast]; rw [if_neg (by omega)]; exact hca
  have sb : slotAt m m.fwdBefore = some (.bound (.struct cb)) := by
    simp only [slotAt, hb, Int.toNat_natCast]; rw [if_neg (by omega)]; exact hcb
  simp only [buildFact, sa, sb, Option.bind_some, Option.bind_eq_some_iff, Option.map_eq_some_iff] at h
  obtain ⟨⟨o1, e1⟩, h1, ⟨o2, e2⟩, h2, rfl⟩ := h
  simp only at h4 h2 ⊢
  have W1 := valuate_spec h1 (hgood _ _ hca) (by omega)
  have g1 := W1.grows
  have W2 := valuate_spec h2 (hgood _ _ hcb) (by omega)
  have g2 := W2.grows
  have l1 := W1.len
  have l2 := W2.len
  simp only [List.length_cons, List.length_nil] at l1
  have rm1 := W1.room
  have rm2 := W2.room
  have hr1 : o1.refs = [0] := by
    simp only [valuate, Option.map_eq_some_iff, Prod.mk.injEq] at h1
    obtain ⟨_, _, rfl, _⟩ := h1
    rfl
  have hr2 : o2.refs = [0] := by
    simp only [valuate, Option.map_eq_some_iff, Prod.mk.injEq] at h2
    obtain ⟨_, _, rfl, _⟩ := h2
    exact hr1
  constructor
  · refine W1.holds (by omega) (by rw [hr1]; decide) _ _ ?_ (by rw [hr1, hr2]; exact List.prefix_refl _)
    intro q hq
    exact W2.kept q (by omega) (by omega) (by
      rcases hq with rfl | ⟨q1, q2⟩
      · omega
      · have := rm1 (by omega); omega)
  · exact W2.holds (by omega) (by rw [hr2]; decide) _ _ (fun _ _ => rfl) (List.prefix_refl _)

theorem buildFact_total {m : BMap} {fop : BitVec 16} {a b : Nat} {ca cb : Code}
    (ha : m.fwdAfter = (a : Int)) (hb : m.fwdBefore = (b : Int))
    (hgood : ∀ (v : Nat) s, m.slots[v]? = some s → Storable s)
    (hca : m.slots[a]? = some (.bound (.struct ca))) (hcb : m.slots[b]? = some (.bound (.struct cb))) :
    Ev fun f => (buildFact f m fop).isSome := by
  have sa : slotAt m m.fwdAfter = some (.bound (.struct ca)) := by
    simp only [slotAt, ha, Int.toNat_natCast]; rw [if_neg (by omega)]; exact hca
  have sb : slotAt m m.fwdBefore = some (.bound (.struct cb)) := by
    simp only [slotAt, hb, Int.toNat_natCast]; rw [if_neg (by omega)]; exact hcb
  refine ((valuate_total (hgood _ _ hca)).and (valuate_total (hgood _ _ hcb))).mono fun g hg => ?_
  simp only [buildFact, sa, sb, Option.bind_some]
  obtain ⟨r, hr⟩ := Option.isSome_iff_exists.1 (hg.1 ⟨[object fop 5, rPointer 0, iPointer 6, iPointer 9,
    float 0x3F800000, float 0x3F800000, timestamp, 0, 0, timestamp, 0, 0], [0]⟩ 2 6)
  rw [hr]
  simp only [Option.bind_some, Option.isSome_map]
  exact hg.2 _ _ _

/-! ## The instance -/

theorem exposedCount_eq {m m0 : BMap} (R : Ready m m0) :
    (exposedCount m).toNat = nonFwd m (m.slots.length - m.first.toNat) m.first.toNat := by
  obtain ⟨a, b, ca, cb, ha, hb, hab, fa, fb, sa, sb⟩ := R.timings
  have la := (List.getElem?_eq_some_iff.1 sa).1
  have lb := (List.getElem?_eq_some_iff.1 sb).1
  have h := nonFwd_count ha hb hab (m.slots.length - m.first.toNat) m.first.toNat
  rw [if_pos (by omega), if_pos (by omega)] at h
  have sm := R.small
  have : (exposedCount m).toNat = m.slots.length - m.first.toNat - 2 := by
    have h2 : (2 : BitVec 16).toNat = 2 := rfl
    have hp : (2 : Nat) ^ 16 = 65536 := rfl
    simp only [exposedCount, BitVec.toNat_sub, BitVec.toNat_ofNat, h2, hp]
    have hf := m.first.isLt
    rw [hp] at hf
    omega
  omega

theorem buildIhlp_spec {ti : Word} {f : Nat} {m m0 : BMap} {hlp : Code} {id n : Nat} {op : BitVec 16} {wr : Bool}
    {o : Obj} {t : Word} (R : Ready m m0) (ht : hlp[1]? = some t) (hA : Args n hlp (asIndex t).toNat)
    (h : buildIhlp ti f m hlp id op wr = some o) (h4 : o.code.length ≤ 4096) (hr4 : o.refs.length ≤ 4096) :
    ∃ u x, o.code[2]? = some u ∧ o.code[3]? = some x ∧
      (AllBound ti m hlp (asIndex t).toNat → Inst hlp m o.code o.refs (asIndex t).toNat (asIndex u).toNat) ∧
      ExposedAt m o.code o.refs (m.slots.length - m.first.toNat) m.first.toNat ((asIndex x).toNat + 1) := by
  simp only [buildIhlp, ht, Option.bind_eq_some_iff, Option.map_eq_some_iff] at h
  obtain ⟨⟨o1, e1⟩, h1, ⟨o2, e2⟩, h2, rfl⟩ := h
  have B := buildStructure_spec R.good _ _ _ _ _ _ h1 ⟨n, hA⟩
  simp only at h2 h4 hr4 ⊢
  have hc := exposedCount_eq R
  obtain ⟨q1, q2, q3, q4, q5, q6, q7⟩ := buildExposed_spec R.good _ _ _ _ _ _ _ h2 (by omega)
  have g := B.grows
  have l := B.len
  have rm := B.room
  have la := put_len o1 3 (ip e1)
  have lb := put_len (o1.put 3 (ip e1)) e1 (set ((exposedCount m).setWidth 8))
  have lc := put_len o2 4 (boolean wr)
  have ld := put_len (o2.put 4 (boolean wr)) 5 (float 0x3F800000)
  have hfin : ∀ q, q < o2.code.length → q ≠ 4 → q ≠ 5 →
      ((o2.put 4 (boolean wr)).put 5 (float 0x3F800000)).code[q]? = o2.code[q]? := by
    intro q hq n4 n5
    rw [put_ne _ _ n5 (by omega), put_ne _ _ n4 hq]
  have hmid : ∀ q, q < o1.code.length → q < e1 → q ≠ 3 → o2.code[q]? = o1.code[q]? := by
    intro q hq hl n3
    rw [q6 q (by omega) (by omega), put_ne _ _ (by omega) (by omega), put_ne _ _ n3 hq]
  have he2 : e2 ≤ o2.code.length := by
    by_cases he : e1 + 1 + (exposedCount m).toNat < e2
    · exact q3 he
    · by_cases h0 : 0 < nonFwd m (m.slots.length - m.first.toNat) m.first.toNat
      · have := q4 h0; omega
      · omega
  have hrefs : ((o2.put 4 (boolean wr)).put 5 (float 0x3F800000)).refs = o2.refs := rfl
  have hrl := q5.length_le
  rw [put_refs, put_refs] at hrl q5
  have l0 : 3 ≤ o1.code.length := by simpa using l
  have c2 : o2.code[2]? = some (iPointer 6) := by
    rw [hmid 2 (by omega) (by omega) (by omega), B.kept 2 (by omega) (by simp)]
    rfl
  have c3 : o2.code[3]? = some (ip e1) := by
    rw [q6 3 (by omega) (by omega), put_ne _ _ (by omega) (by omega), put_self]
  have i6 : (asIndex (iPointer 6)).toNat = 6 := by decide
  refine ⟨iPointer 6, ip e1, ?_, ?_, ?_, ?_⟩
  · rw [hfin 2 (by omega) (by omega) (by omega), c2]
  · rw [hfin 3 (by omega) (by omega) (by omega), c3]
  · rw [i6]
    refine fun hB => B.holds (by omega) (by rw [hrefs] at hr4; omega) _ _ (fun q a1 a2 => ?_) q5 hB
    rw [hfin q (by omega) (by omega) (by omega), hmid q (by omega) a2 (by omega)]
  · rw [ix_ip e1 (by omega)]
    refine q7 (by omega) hr4 _ _ (fun q hq => ?_) (List.prefix_refl _)
    exact hfin q (by
      rcases hq with ⟨a1, a2⟩ | ⟨a1, a2⟩
      · have := q4 (by omega); omega
      · omega) (by omega) (by omega)

theorem buildIhlp_total {ti : Word} {m m0 : BMap} {hlp : Code} {id n : Nat} {op : BitVec 16} {wr : Bool}
    {t : Word} (R : Ready m m0) (ht : hlp[1]? = some t) (hn : n ≤ m.slots.length)
    (hA : Args n hlp (asIndex t).toNat) : Ev fun f => (buildIhlp ti f m hlp id op wr).isSome := by
  obtain ⟨a, b, ca, cb, ha, hb, hab, fa, fb, sa, sb⟩ := R.timings
  have la := (List.getElem?_eq_some_iff.1 sa).1
  refine ((buildStructure_total (ti := ti) R.good hn hA).and
    (buildExposed_total R.good (m.slots.length - m.first.toNat) m.first.toNat (by omega))).mono fun g hg => ?_
  simp only [buildIhlp, ht]
  obtain ⟨r, hr⟩ := Option.isSome_iff_exists.1 (hg.1 ⟨[object op 5, rPointer 0, iPointer 6], [id]⟩ 6)
  rw [show ix t = (asIndex t).toNat from rfl, hr]
  simp only [Option.bind_some, Option.isSome_map]
  exact hg.2 _ _ _

end Verif.Instance
