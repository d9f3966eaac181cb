import Verif.Bind.Lemmas
/-! A pattern whose variables have values without variables has no variable once bound. -/
namespace Verif.Bind
open Verif.Atom Verif.Words Verif.BindMap Verif.Values Verif.Instance

/-! ## Specification -/

/-- A finite structure without variables. -/
inductive Ground (c : Code) : Nat → Prop
  | mk {i : Nat} {h : Word} (hh : c[i]? = some h) (hp : getDescriptor h ≠ 0x84) (hv : getDescriptor h ≠ 0x86)
      (hall : i + count h < c.length)
      (hraw : raw h = true → ∀ k w, 1 ≤ k → k ≤ count h → c[i + k]? = some w → getDescriptor w ≠ 0x84)
      (hmem : raw h = false → ∀ k w, 1 ≤ k → k ≤ count h → c[i + k]? = some w →
        raw w = false ∧ getDescriptor w ≠ 0x86)
      (hsub : raw h = false → ∀ k w, 1 ≤ k → k ≤ count h → c[i + k]? = some w → getDescriptor w = 0x84 →
        Ground c (asIndex w).toNat) : Ground c i

/-- A value without variables: an atom, a structure, an object of `h` and all it refers to. -/
def GroundVal (K : Kinds) (h : List Obj) : BindMap.Val → Prop
  | .atom w => raw w = false ∧ getDescriptor w ≠ 0x86
  | .struct c => Ground c 0
  | .obj r => (∃ n, Pattern K n h r) ∧ ¬ HasVar K h r

/-- Variable `v` occurs in the pattern or what it refers to. -/
inductive Uses (K : Kinds) (h : List Obj) (v : Nat) : Nat → Prop
  | here {p : Nat} {o : Obj} {w : Word} {j : Nat} (ho : h[p]? = some o) (hw : o.code[0]? = some w)
      (hk : asOpcode w ∉ [K.ont, K.ent, K.mdl, K.cst]) (hv : VarAt o.code j v) : Uses K h v p
  | ref {p r : Nat} {o : Obj} {w : Word} (ho : h[p]? = some o) (hw : o.code[0]? = some w)
      (hk : asOpcode w ∉ [K.ont, K.ent, K.mdl, K.cst]) (hr : r ∈ o.refs) (hv : Uses K h v r) : Uses K h v p

/-! ## Words without variables -/

/-- Reading from `s` on leads to `e` without a variable. -/
inductive Clean (c : Code) (e : Nat) : Nat → Prop
  | nil : Clean c e e
  | cons {s : Nat} {w : Word} (hw : c[s]? = some w) (hv : getDescriptor w ≠ 0x86) (h : Clean c e (after s w)) :
      Clean c e s

theorem Clean.append {c : Code} {e t s : Nat} (h : Clean c e s) (h' : Clean c t e) : Clean c t s := by
  induction h with
  | nil => exact h'
  | cons hw hv _ ih => exact Clean.cons hw hv ih

theorem Clean.range {c : Code} {e : Nat} : ∀ n s, s + n = e →
    (∀ q, s ≤ q → q < e → ∃ w, c[q]? = some w ∧ raw w = false ∧ getDescriptor w ≠ 0x86) → Clean c e s := by
  intro n
  induction n with
  | zero => intro s hs _; obtain rfl : s = e := by omega
            exact Clean.nil
  | succ n ih =>
    intro s hs h
    obtain ⟨w, hw, hr, hv⟩ := h s (Nat.le_refl _) (by omega)
    refine Clean.cons hw hv ?_
    rw [show after s w = s + 1 by simp [after, hr]]
    exact ih (s + 1) (by omega) (fun q h1 h2 => h q (by omega) h2)

theorem Clean.no {c : Code} {e s j : Nat} {w : Word} (h : Clean c e s) (he : c.length ≤ e) (hs : Sign c s j)
    (hw : c[j]? = some w) : getDescriptor w ≠ 0x86 := by
  induction h with
  | nil =>
    have := hs.ge
    have := (List.getElem?_eq_some_iff.1 hw).1
    omega
  | @cons s w' hw' hv _ ih =>
    rcases hs.split with rfl | ⟨w2, hw2, hs2⟩
    · rw [hw'] at hw; obtain rfl := Option.some.inj hw; exact hv
    · rw [hw'] at hw2; obtain rfl := Option.some.inj hw2
      exact ih hs2

/-! ## Copies -/

theorem Ground.plain {c : Code} {i : Nat} (h : Ground c i) : Plain c i ∧ Whole c i := by
  induction h with
  | mk hh hp hv hall hraw hmem hsub ih =>
    exact ⟨Plain.mk hh hraw (fun hr k w h1 h2 hw hd => (ih hr k w h1 h2 hw hd).1),
      Whole.mk hh hp hall (fun hr k w h1 h2 hw hd => (ih hr k w h1 h2 hw hd).2)⟩

theorem copyMembers_clean {src : Code} {f idx start : Nat}
    (ih : ∀ d e j d' e', copyStructure src f d e j = some (d', e') → Ground src j →
      d'.length ≤ max d.length e' ∧
      (e' ≤ 4096 → ∀ c : Code, (∀ q, e ≤ q → q < e' → c[q]? = d'[q]?) → Clean c e' e)) :
    ∀ k i d e d' e', copyMembers (copyStructure src f) src idx start k i d e = some (d', e') →
      start + i + k ≤ e →
      (∀ m a, i ≤ m → m < i + k → src[idx + m]? = some a → getDescriptor a = 0x84 →
        Ground src (asIndex a).toNat) →
      e ≤ e' ∧ d'.length ≤ max d.length e' ∧
      (e' ≤ 4096 → ∀ c : Code, (∀ q, e ≤ q → q < e' → c[q]? = d'[q]?) → Clean c e' e) := by
  intro k
  induction k with
  | zero =>
    intro i d e d' e' h hse hsub
    simp only [copyMembers, Option.some.injEq, Prod.mk.injEq] at h
    obtain ⟨rfl, rfl⟩ := h
    exact ⟨Nat.le_refl _, by omega, fun _ c _ => Clean.nil⟩
  | succ k ihk =>
    intro i d e d' e' h hse hsub
    simp only [copyMembers] at h
    cases ha : src[idx + i]? with
    | none => rw [ha] at h; simp at h
    | some a =>
      rw [ha] at h
      simp only at h
      by_cases hp : isPtr a = true
      · rw [if_pos hp, Option.bind_eq_some_iff] at h
        obtain ⟨⟨d2, e2⟩, h2, h3⟩ := h
        simp only at h3
        have hd : getDescriptor a = 0x84 := (isPtr_iff a).1 hp
        have hg := hsub i a (Nat.le_refl _) (by omega) ha hd
        have C := copyStructure_spec _ _ _ _ _ _ h2 hg.plain.1 hg.plain.2
        have hl1 : (put d (start + i) (ip e)).length = max d.length (start + i + 1) := length_put _ _ _
        have g1 := C.grows
        have g3 := C.room
        obtain ⟨l1, c1⟩ := ih _ _ _ _ _ h2 hg
        have hsub' : ∀ m a', i + 1 ≤ m → m < i + 1 + k → src[idx + m]? = some a' → getDescriptor a' = 0x84 →
            Ground src (asIndex a').toNat := fun m a' h1 h2' => hsub m a' (by omega) (by omega)
        obtain ⟨q1, q2, q3⟩ := ihk (i + 1) d2 e2 d' e' h3 (by omega) hsub'
        obtain ⟨_, _, _, _, q5, _⟩ := copyMembers_spec (copyStructure_spec f) _ _ _ _ _ _ h3 (by omega)
          (fun m a' h1 h2' h3 h4 => (hsub' m a' h1 h2' h3 h4).plain)
        refine ⟨by omega, by omega, fun h4 c hc => ?_⟩
        refine Clean.append (c1 (by omega) c fun q x1 x2 => ?_) (q3 h4 c fun q x1 x2 => hc q (by omega) x2)
        rw [hc q x1 (by omega), q5 q (by omega) (by omega)]
      · rw [if_neg hp] at h
        have hl1 : (put d (start + i) a).length = max d.length (start + i + 1) := length_put _ _ _
        obtain ⟨q1, q2, q3⟩ := ihk (i + 1) _ e d' e' h (by omega)
          (fun m a' h1 h2' => hsub m a' (by omega) (by omega))
        exact ⟨q1, by omega, q3⟩

theorem copyStructure_clean {src : Code} : ∀ f d e j d' e', copyStructure src f d e j = some (d', e') →
    Ground src j → d'.length ≤ max d.length e' ∧
      (e' ≤ 4096 → ∀ c : Code, (∀ q, e ≤ q → q < e' → c[q]? = d'[q]?) → Clean c e' e) := by
  intro f
  induction f with
  | zero => intro d e j d' e' h; simp [copyStructure] at h
  | succ f ih =>
    intro d e j d' e' h hg
    have hpl := hg.plain
    obtain ⟨hh, hnp, hnv, hall, hraw, hmem, hsub⟩ := hg
    rename_i w
    have hno : ∀ m a, 0 ≤ m → m < 0 + (count w + 1) → src[j + m]? = some a → getDescriptor a = 0x84 →
        Ground src (asIndex a).toNat := by
      intro m a _ hm ha hd
      by_cases h0 : m = 0
      · subst h0
        rw [Nat.add_zero, hh] at ha
        obtain rfl : w = a := by simpa using ha
        exact absurd hd hnp
      · have hr : raw w = false := by
          cases hr : raw w
          · rfl
          · exact absurd hd (hraw hr m a (by omega) (by omega) ha)
        exact hsub hr m a (by omega) (by omega) ha hd
    simp only [copyStructure, hh] at h
    obtain ⟨q1, q2, q3⟩ := copyMembers_clean ih _ _ _ _ _ _ h (by omega) hno
    obtain ⟨_, _, _, _, _, q6⟩ := copyMembers_spec (copyStructure_spec f) _ _ _ _ _ _ h (by omega)
      (fun m a h1 h2 h3 h4 => (hno m a h1 h2 h3 h4).plain)
    refine ⟨q2, fun h4 c hc => ?_⟩
    have hm := q6 h4 c (fun q hq => hc q (by omega) (by omega))
    have hce : c[e]? = some w := by
      obtain ⟨a, ha, _, hat⟩ := hm 0 (Nat.le_refl _) (by omega)
      rw [Nat.add_zero, hh] at ha
      obtain rfl : w = a := by simpa using ha
      exact hat hnp
    have hext := q3 h4 c (fun q x1 x2 => hc q (by omega) x2)
    refine Clean.append (e := e + (1 + count w)) ?_ hext
    refine Clean.cons hce hnv ?_
    cases hr : raw w with
    | true =>
      rw [show after e w = e + (1 + count w) by simp [after, hr]; omega]
      exact Clean.nil
    | false =>
      rw [show after e w = e + 1 by simp [after, hr]]
      refine Clean.range (count w) (e + 1) (by omega) (fun q x1 x2 => ?_)
      obtain ⟨a, ha, h1, h2⟩ := hm (q - e) (by omega) (by omega)
      rw [show e + (q - e) = q by omega] at h1 h2
      obtain ⟨m1, m2⟩ := hmem hr (q - e) a (by omega) (by omega) ha
      by_cases hd : getDescriptor a = 0x84
      · obtain ⟨x, hx, _⟩ := h1 hd
        exact ⟨ip x, hx, by simp [raw, ip_ptr], by rw [ip_ptr]; decide⟩
      · exact ⟨a, h2 hd, m1, m2⟩

theorem valuate_clean {K : Kinds} {h : List Obj} {f : Nat} {v : BindMap.Val} {o o' : Obj} {write e e' : Nat}
    (hv : valuate f (.bound v) o write e = some (o', e')) (hs : GroundVal K h v) (hw : write < e) :
    o'.code.length ≤ max o.code.length (max e' (write + 1)) ∧
    (e' ≤ 4096 → ∀ c : Code, (∀ q, e ≤ q → q < e' → c[q]? = o'.code[q]?) → Clean c e' e) ∧
    (∀ r, r ∈ o'.refs → r ∈ o.refs ∨ v = .obj r) := by
  match v with
  | .atom w =>
    simp only [valuate, Option.some.injEq, Prod.mk.injEq] at hv
    obtain ⟨rfl, rfl⟩ := hv
    refine ⟨?_, fun _ c _ => Clean.nil, fun r hr => Or.inl hr⟩
    have := put_len o write w
    omega
  | .obj r =>
    simp only [valuate, Option.some.injEq, Prod.mk.injEq] at hv
    obtain ⟨rfl, rfl⟩ := hv
    refine ⟨?_, fun _ c _ => Clean.nil, fun x hx => ?_⟩
    · have := put_len o write (rPointer (BitVec.ofNat 16 o.refs.length))
      simp only; omega
    · simp only [List.mem_append, List.mem_singleton] at hx
      rcases hx with hx | rfl
      · exact Or.inl hx
      · exact Or.inr rfl
  | .struct c =>
    simp only [valuate, valuateStruct, Option.map_eq_some_iff, Prod.mk.injEq] at hv
    obtain ⟨⟨d', x⟩, h1, rfl, rfl⟩ := hv
    obtain ⟨l, cl⟩ := copyStructure_clean _ _ _ _ _ _ h1 hs
    have hl := length_put o.code write (ip e)
    exact ⟨by simp only; omega, cl, fun r hr => Or.inl hr⟩

theorem written_clean {K : Kinds} {h : List Obj} {c : Code} {rs : List Nat} {w : Word} {v : BindMap.Val}
    (hg : GroundVal K h v) (hw : Written c rs w (.bound v)) : raw w = false ∧ getDescriptor w ≠ 0x86 := by
  match v with
  | .atom a => obtain rfl : w = a := hw
               exact hg
  | .obj r =>
    obtain ⟨n, _, rfl, _⟩ := hw
    exact ⟨by simp [raw, rp_desc], by rw [rp_desc]; decide⟩
  | .struct a =>
    obtain ⟨x, _, rfl, _⟩ := hw
    exact ⟨by simp [raw, ip_ptr], by rw [ip_ptr]; decide⟩

/-- The values of the variables of the code are without variables. -/
def Grounded (K : Kinds) (h : List Obj) (m : BMap) (v : Nat) : Prop :=
  ∃ x, m.slots[v]? = some (.bound x) ∧ GroundVal K h x

theorem copyData_len {c : Code} : ∀ n j o o', copyData c n j o = some o' →
    o'.code.length ≤ max o.code.length (j + n) := by
  intro n
  induction n with
  | zero =>
    intro j o o' h
    simp only [copyData, Option.some.injEq] at h
    subst h; omega
  | succ n ih =>
    intro j o o' h
    simp only [copyData] at h
    cases hw : c[j]? with
    | none => rw [hw] at h; simp at h
    | some w =>
      rw [hw] at h
      have := ih _ _ _ h
      have := put_len o j w
      omega

theorem bindWords_clean {K : Kinds} {h : List Obj} {f : Nat} {m : BMap} {c : Code}
    (hgood : ∀ (v : Nat) s, m.slots[v]? = some s → Storable s) :
    ∀ k i o e o' e', bindWords f m c k i o e = some (o', e') → c.length ≤ i + k → c.length ≤ e →
      (∀ j w, Sign c i j → c[j]? = some w → raw w = true → j + count w < c.length) →
      (∀ j v, VarFrom c i j v → Grounded K h m v) →
      o'.code.length ≤ max o.code.length e' ∧
      (e' ≤ 4096 → ∀ c' : Code, (∀ q, e ≤ q → q < e' → c'[q]? = o'.code[q]?) → Clean c' e' e) ∧
      (∀ r, r ∈ o'.refs → r ∈ o.refs ∨ ((∃ n, Pattern K n h r) ∧ ¬ HasVar K h r)) := by
  intro k
  induction k with
  | zero =>
    intro i o e o' e' h hk _ _ _
    simp only [bindWords, Option.some.injEq, Prod.mk.injEq] at h
    obtain ⟨rfl, rfl⟩ := h
    exact ⟨by omega, fun _ _ _ => Clean.nil, fun r hr => Or.inl hr⟩
  | succ k ih =>
    intro i o e o' e' hb hk hce hdata hvar
    simp only [bindWords] at hb
    cases hw : c[i]? with
    | none =>
      rw [hw] at hb
      simp only [Option.some.injEq, Prod.mk.injEq] at hb
      obtain ⟨rfl, rfl⟩ := hb
      exact ⟨by omega, fun _ _ _ => Clean.nil, fun r hr => Or.inl hr⟩
    | some w =>
      rw [hw] at hb
      simp only at hb
      have hil := (List.getElem?_eq_some_iff.1 hw).1
      have hdata' : ∀ j w', Sign c (after i w) j → c[j]? = some w' → raw w' = true → j + count w' < c.length :=
        fun j w' hj => hdata j w' (Sign.cons hw hj)
      have hvar' : ∀ j v, VarFrom c (after i w) j v → Grounded K h m v :=
        fun j v hv => hvar j v ⟨Sign.cons hw hv.1, hv.2⟩
      by_cases hv : getDescriptor w = 0x86
      · rw [if_pos hv] at hb
        have ha : after i w = i + 1 := by simp [after, raw_not_var hv]
        rw [ha] at hdata' hvar'
        obtain ⟨x, hs, hgx⟩ := hvar i _ ⟨Sign.first, w, hw, hv, rfl⟩
        rw [show ix w = (asIndex w).toNat from rfl, hs] at hb
        simp only [Option.bind_eq_some_iff] at hb
        obtain ⟨⟨o1, e1⟩, h1, h2⟩ := hb
        simp only at h2
        have W := valuate_spec h1 (hgood _ _ hs) (by omega)
        have g := W.grows
        have rm := W.room
        obtain ⟨l1, c1, r1⟩ := valuate_clean h1 hgx (by omega)
        obtain ⟨l2, c2, r2⟩ := ih _ _ _ _ _ h2 (by omega) (by omega) hdata' hvar'
        obtain ⟨q1, q2, _, _, _, q6, _⟩ := bindWords_spec hgood _ _ _ _ _ _ h2 (by omega) (by omega) hdata'
        refine ⟨by omega, fun h4 c' hc => ?_, fun r hr => ?_⟩
        · refine Clean.append (c1 (by omega) c' fun q x1 x2 => ?_) (c2 h4 c' fun q x1 x2 => hc q (by omega) x2)
          rw [hc q x1 (by omega)]
          exact q6 q (by have := rm (by omega); omega) (Or.inr ⟨by omega, x2⟩)
        · rcases r2 r hr with hr | hr
          · rcases r1 r hr with hr | rfl
            · exact Or.inl hr
            · exact Or.inr hgx
          · exact Or.inr hr
      · rw [if_neg hv, isData_raw] at hb
        cases hrw : raw w with
        | true =>
          have ha : after i w = i + count w + 1 := by simp [after, hrw]; omega
          rw [hrw] at hb
          simp only [if_true, Option.bind_eq_some_iff] at hb
          obtain ⟨o1, h1, h2⟩ := hb
          rw [← ha] at h2
          have hd := hdata i w Sign.first hw hrw
          have hl := copyData_len _ _ _ _ h1
          have hl2 := put_len o i w
          obtain ⟨_, _, a3, _, _⟩ := copyData_spec _ _ _ _ h1
          obtain ⟨l2, c2, r2⟩ := ih _ _ _ _ _ h2 (by omega) (by omega) hdata' hvar'
          obtain ⟨q1, _⟩ := bindWords_spec hgood _ _ _ _ _ _ h2 (by omega) (by omega) hdata'
          refine ⟨by omega, c2, fun r hr => ?_⟩
          rw [a3] at r2
          exact r2 r hr
        | false =>
          have ha : after i w = i + 1 := by simp [after, hrw]
          rw [hrw] at hb
          simp only [Bool.false_eq_true, if_false] at hb
          rw [ha] at hdata' hvar'
          have hl2 := put_len o i w
          obtain ⟨l2, c2, r2⟩ := ih _ _ _ _ _ hb (by omega) (by omega) hdata' hvar'
          obtain ⟨q1, _⟩ := bindWords_spec hgood _ _ _ _ _ _ hb (by omega) (by omega) hdata'
          exact ⟨by omega, c2, r2⟩

/-- The code of a bound object has no variable. -/
theorem filled_clean {K : Kinds} {h : List Obj} {m : BMap} {c c' : Code} {rs : List Nat} (F : Filled m c c' rs)
    (hdata : ∀ j w, Sign c 1 j → c[j]? = some w → raw w = true → j + count w < c.length)
    (hvar : ∀ j v, VarAt c j v → Grounded K h m v) :
    ∀ n s, Sign c 1 s → s + n = c.length → Clean c' c.length s := by
  intro n
  induction n using Nat.strongRecOn with
  | _ n ih =>
    intro s hs hn
    by_cases h0 : n = 0
    · obtain rfl : s = c.length := by omega
      exact Clean.nil
    · have hw := List.getElem?_eq_getElem (show s < c.length by omega)
      generalize c[s] = w at hw
      have hal : after s w ≤ c.length := by
        simp only [after]
        cases hr : raw w with
        | true => have := hdata s w hs hw hr; simp only [if_true]; omega
        | false => simp only [Bool.false_eq_true, if_false]; omega
      have hag : s < after s w := by simp only [after]; omega
      have hrest := ih (c.length - after s w) (by omega) (after s w) (Sign.next hs hw) (by omega)
      by_cases hv : getDescriptor w = 0x86
      · have hva : VarAt c s (asIndex w).toNat := ⟨hs, w, hw, hv, rfl⟩
        obtain ⟨x, hx, hg⟩ := hvar _ _ hva
        obtain ⟨sl, w', hsl, hw', hwr⟩ := F.fill _ _ hva
        rw [hx] at hsl
        obtain rfl := Option.some.inj hsl
        obtain ⟨k1, k2⟩ := written_clean hg hwr
        refine Clean.cons hw' k2 ?_
        rw [show after s w' = after s w by simp [after, k1, raw_not_var hv]]
        exact hrest
      · refine Clean.cons (w := w) ?_ hv hrest
        rw [F.keep s (by omega), hw]
        rintro v ⟨_, w2, hw2, hd2, _⟩
        rw [hw] at hw2
        obtain rfl := Option.some.inj hw2
        exact hv hd2

/-! ## Patterns -/

theorem HasVar.lower {K : Kinds} {n : Nat} {h h' : List Obj} {p : Nat} (hp : h <+: h') (hP : Pattern K n h p)
    (hv : HasVar K h' p) : HasVar K h p := by
  induction hP with
  | @fixed p o w ho hw hk =>
    exfalso
    cases hv with
    | here ho' hw' hk' =>
      rw [get_prefix hp ho] at ho'; obtain rfl := Option.some.inj ho'
      rw [hw] at hw'; obtain rfl := Option.some.inj hw'
      exact hk' hk
    | ref ho' hw' hk' =>
      rw [get_prefix hp ho] at ho'; obtain rfl := Option.some.inj ho'
      rw [hw] at hw'; obtain rfl := Option.some.inj hw'
      exact hk' hk
  | @mk p o w ho hw _ _ _ ih =>
    cases hv with
    | here ho' hw' hk' hv =>
      rw [get_prefix hp ho] at ho'; obtain rfl := Option.some.inj ho'
      exact HasVar.here ho hw' hk' hv
    | ref ho' hw' hk' hr hv =>
      rw [get_prefix hp ho] at ho'; obtain rfl := Option.some.inj ho'
      exact HasVar.ref ho hw' hk' hr (ih _ hr hv)

/-- The new objects are small enough for pointers. -/
def SmallFrom (n : Nat) (h : List Obj) : Prop :=
  ∀ (q : Nat) o, n ≤ q → h[q]? = some o → o.code.length ≤ 4096 ∧ o.refs.length ≤ 4096

theorem SmallFrom.prefix {n : Nat} {h h' : List Obj} (hs : SmallFrom n h') (hp : h <+: h') : SmallFrom n h :=
  fun q o hq ho => hs q o hq (get_prefix hp ho)

theorem bindRefs_closed {K : Kinds} {m : BMap} {n : Nat} {h0 : List Obj} {f : Nat}
    (hgood : ∀ (v : Nat) s, m.slots[v]? = some s → Storable s)
    (ih : ∀ h p h' p', bindPattern K m f h p = some (h', p') → h0 <+: h → Pattern K n h0 p →
      (∀ v, Uses K h0 v p → Grounded K h0 m v) → SmallFrom h0.length h' → ∀ h2, h' <+: h2 → ¬ HasVar K h2 p') :
    ∀ refs h rs h' rs', bindRefs (fun h => needBinding K h f) (bindPattern K m f) refs h rs = some (h', rs') →
      h0 <+: h → (∀ r, r ∈ refs → Pattern K n h0 r) →
      (∀ r, r ∈ refs → ∀ v, Uses K h0 v r → Grounded K h0 m v) → SmallFrom h0.length h' →
      ∀ h2, h' <+: h2 → ∀ r, r ∈ rs' → r ∈ rs ∨ ¬ HasVar K h2 r := by
  intro refs
  induction refs with
  | nil =>
    intro h rs h' rs' hb _ _ _ _ h2 _ r hr
    simp only [bindRefs, Option.some.injEq, Prod.mk.injEq] at hb
    obtain ⟨rfl, rfl⟩ := hb
    exact Or.inl hr
  | cons a refs ihr =>
    intro h rs h' rs' hb hp hP hU hS h2 hp2 r hr
    simp only [bindRefs, Option.bind_eq_some_iff] at hb
    obtain ⟨b, hbn, hb⟩ := hb
    have hn := need_spec f h a b hp (hP a (by simp)) hbn
    have hrest := fun h1 rs1 (hb : bindRefs (fun h => needBinding K h f) (bindPattern K m f) refs h1 rs1 = some (h', rs'))
      (hp1 : h0 <+: h1) => ihr h1 rs1 h' rs' hb hp1 (fun r hr => hP r (by simp [hr]))
        (fun r hr => hU r (by simp [hr])) hS h2 hp2 r hr
    have hpre := fun h1 rs1 (hb : bindRefs (fun h => needBinding K h f) (bindPattern K m f) refs h1 rs1 = some (h', rs'))
      (hp1 : h0 <+: h1) => (bindRefs_spec (bindPattern_spec hgood f) _ _ _ _ _ hb hp1
        (fun r hr => hP r (by simp [hr]))).1
    cases b with
    | true =>
      simp only [if_true, Option.bind_eq_some_iff] at hb
      obtain ⟨⟨h1, r1⟩, h3, h4⟩ := hb
      obtain ⟨a1, a2⟩ := bindPattern_spec hgood f _ _ _ _ h3 hp (hP a (by simp))
      have hp1 := hpre _ _ h4 (hp.trans a1)
      rcases hrest _ _ h4 (hp.trans a1) with hr | hr
      · rcases List.mem_append.1 hr with hr | hr
        · exact Or.inl hr
        · obtain rfl := List.mem_singleton.1 hr
          exact Or.inr (ih _ _ _ _ h3 hp (hP a (by simp)) (hU a (by simp)) (hS.prefix hp1) h2 (hp1.trans hp2))
      · exact Or.inr hr
    | false =>
      simp only [Bool.false_eq_true, if_false] at hb
      rcases hrest _ _ hb hp with hr | hr
      · rcases List.mem_append.1 hr with hr | hr
        · exact Or.inl hr
        · obtain rfl := List.mem_singleton.1 hr
          refine Or.inr fun hv => ?_
          have := HasVar.lower ((hp.trans (hpre _ _ hb hp)).trans hp2) (hP r (by simp)) hv
          exact absurd (hn.2 this) (by decide)
      · exact Or.inr hr

theorem bindPattern_closed {K : Kinds} {m : BMap} {n : Nat} {h0 : List Obj}
    (hgood : ∀ (v : Nat) s, m.slots[v]? = some s → Storable s) :
    ∀ f h p h' p', bindPattern K m f h p = some (h', p') → h0 <+: h → Pattern K n h0 p →
      (∀ v, Uses K h0 v p → Grounded K h0 m v) → SmallFrom h0.length h' →
      ∀ h2, h' <+: h2 → ¬ HasVar K h2 p' := by
  intro f
  induction f with
  | zero => intro h p h' p' hb; simp [bindPattern] at hb
  | succ f ih =>
    intro h p h' p' hb hp hP hU hS h2 hp2
    have hspec := bindPattern_spec hgood (f + 1) _ _ _ _ hb hp hP
    simp only [bindPattern, Option.bind_eq_some_iff] at hb
    obtain ⟨b, hbn, hb⟩ := hb
    have hn := need_spec f h p b hp hP hbn
    cases b with
    | false =>
      simp only [Bool.false_eq_true, if_false, Option.some.injEq, Prod.mk.injEq] at hb
      obtain ⟨rfl, rfl⟩ := hb
      intro hv
      exact absurd (hn.2 (HasVar.lower (hp.trans hp2) hP hv)) (by decide)
    | true =>
      have hv := hn.1 rfl
      have hM : ∃ o w, h0[p]? = some o ∧ o.code[0]? = some w ∧ asOpcode w ∉ [K.ont, K.ent, K.mdl, K.cst] ∧
          (∀ j w, Sign o.code 1 j → o.code[j]? = some w → raw w = true → j + count w < o.code.length) ∧
          (∀ r, r ∈ o.refs → Pattern K n h0 r) := by
        have hk : ∀ o w, h0[p]? = some o → o.code[0]? = some w → asOpcode w ∉ [K.ont, K.ent, K.mdl, K.cst] := by
          intro o w ho hw
          cases hv with
          | here ho' hw' hk' =>
            rw [ho] at ho'; obtain rfl := Option.some.inj ho'
            rw [hw] at hw'; obtain rfl := Option.some.inj hw'
            exact hk'
          | ref ho' hw' hk' =>
            rw [ho] at ho'; obtain rfl := Option.some.inj ho'
            rw [hw] at hw'; obtain rfl := Option.some.inj hw'
            exact hk'
        cases hP with
        | @fixed _ o w ho hw hk' => exact absurd hk' (hk o w ho hw)
        | @mk _ o w ho hw hdata hvar href => exact ⟨o, w, ho, hw, hk o w ho hw, hdata, href⟩
      obtain ⟨o, w, ho, hw, hk, hdata, href⟩ := hM
      simp only [if_true, get_prefix hp ho, hw, Option.bind_eq_some_iff, Option.map_eq_some_iff] at hb
      obtain ⟨⟨h1, rs⟩, hr, ⟨o', e'⟩, hwd, heq⟩ := hb
      simp only [Prod.mk.injEq] at heq hwd
      obtain ⟨rfl, rfl⟩ := heq
      have hpre : h1 <+: h1 ++ [o'] := List.prefix_append _ _
      obtain ⟨p1, -⟩ := bindRefs_spec (bindPattern_spec hgood f) _ _ _ _ _ hr hp href
      have hol : 0 < o.code.length := (List.getElem?_eq_some_iff.1 hw).1
      have hUw : ∀ j v, VarAt o.code j v → Grounded K h0 m v := fun j v hjv => hU v (Uses.here ho hw hk hjv)
      obtain ⟨l2, c2, r2⟩ := bindWords_clean (K := K) (h := h0) hgood _ _ _ _ _ _ hwd (by omega) (Nat.le_refl _)
        hdata hUw
      obtain ⟨q1, -, q3, -⟩ := bindWords_spec hgood _ _ _ _ _ _ hwd (by omega) (Nat.le_refl _) hdata
      have hget : (h1 ++ [o'])[h1.length]? = some o' := by simp
      obtain ⟨s4, sr4⟩ := hS h1.length o' (hp.trans p1).length_le hget
      have he' : e' ≤ 4096 := by
        by_cases he : o.code.length < e'
        · have := q3 he; omega
        · have := (List.getElem?_eq_some_iff.1 hw).1
          have hF := hspec.2
          cases hF with
          | same hn' => exact absurd hv hn'
          | new hv' ho1 ho1' hnew hcode hlen hrefs =>
            rw [ho] at ho1; obtain rfl := Option.some.inj ho1
            rw [hget] at ho1'; obtain rfl := Option.some.inj ho1'
            have := (hcode s4 sr4).len
            omega
      have hF : Filled m o.code o'.code o'.refs := by
        have hF := hspec.2
        cases hF with
        | same hn' => exact absurd hv hn'
        | new hv' ho1 ho1' hnew hcode hlen hrefs =>
          rw [ho] at ho1; obtain rfl := Option.some.inj ho1
          rw [hget] at ho1'; obtain rfl := Option.some.inj ho1'
          exact hcode s4 sr4
      have hclean : Clean o'.code e' 1 :=
        Clean.append (filled_clean (K := K) (h := h0) hF hdata hUw (o.code.length - 1) 1 Sign.first (by omega))
          (c2 he' o'.code fun _ _ _ => rfl)
      simp only [List.length_cons, List.length_nil] at l2
      intro hv2
      cases hv2 with
      | here ho2 hw2 hk2 hv2 =>
        rw [get_prefix hp2 hget] at ho2
        obtain rfl := Option.some.inj ho2
        obtain ⟨hs, w', hw', hd, _⟩ := hv2
        exact hclean.no (by omega) hs hw' hd
      | ref ho2 hw2 hk2 hr2 hv2 =>
        rw [get_prefix hp2 hget] at ho2
        obtain rfl := Option.some.inj ho2
        rcases r2 _ hr2 with hr2 | ⟨⟨n', hP'⟩, hnv⟩
        · rcases bindRefs_closed hgood ih _ _ _ _ _ hr hp href
            (fun r hr v hv => hU v (Uses.ref ho hw hk hr hv)) (hS.prefix hpre) h2 (hpre.trans hp2) _ hr2 with hr | hr
          · simp at hr
          · exact hr hv2
        · exact hnv (HasVar.lower ((hp.trans p1).trans (hpre.trans hp2)) hP' hv2)

end Verif.Bind
