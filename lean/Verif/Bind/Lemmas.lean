import Verif.Bind.Spec
import Verif.Instance.Read
namespace Verif.Bind
open Verif.Atom Verif.Words Verif.BindMap Verif.Values Verif.Instance

theorem isData_raw (w : Word) : isData w = raw w := by
  unfold isData raw
  cases getDescriptor w == 0xC7 <;> cases getDescriptor w == 0xD0 <;> cases getDescriptor w == 0xC6 <;> rfl

theorem fixed_iff (K : Kinds) (w : Word) : fixed K w = true ↔ asOpcode w ∈ [K.ont, K.ent, K.mdl, K.cst] := by
  simp [fixed, or_assoc]

/-! ## Reading the words of a pattern -/

theorem Sign.ge {c : Code} {s j : Nat} (h : Sign c s j) : s ≤ j := by
  induction h with
  | first => exact Nat.le_refl _
  | next _ _ ih => simp only [after]; omega

theorem Sign.cons {c : Code} {s j : Nat} {w : Word} (hw : c[s]? = some w) (h : Sign c (after s w) j) :
    Sign c s j := by
  induction h with
  | first => exact Sign.next Sign.first hw
  | next _ hw' ih => exact Sign.next ih hw'

theorem Sign.split {c : Code} {s j : Nat} (h : Sign c s j) :
    j = s ∨ ∃ w, c[s]? = some w ∧ Sign c (after s w) j := by
  induction h with
  | first => exact Or.inl rfl
  | @next i w _ hw ih =>
    rcases ih with rfl | ⟨w', hw', hs⟩
    · exact Or.inr ⟨w, hw, Sign.first⟩
    · exact Or.inr ⟨w', hw', Sign.next hs hw⟩

theorem Sign.trans {c : Code} {s i j : Nat} (h : Sign c s i) (h' : Sign c i j) : Sign c s j := by
  induction h' with
  | first => exact h
  | next _ hw ih => exact Sign.next ih hw

/-- Some variable from `s` on. -/
def Some86 (c : Code) (s : Nat) : Prop := ∃ j w, Sign c s j ∧ c[j]? = some w ∧ getDescriptor w = 0x86

theorem raw_not_var {w : Word} (h : getDescriptor w = 0x86) : raw w = false := by
  simp [raw, h]

theorem scanVar_iff {c : Code} : ∀ k i, c.length ≤ i + k → (scanVar c k i = true ↔ Some86 c i) := by
  intro k
  induction k with
  | zero =>
    intro i hk
    simp only [scanVar, Bool.false_eq_true, false_iff]
    rintro ⟨j, w, hs, hw, _⟩
    have := hs.ge
    have := (List.getElem?_eq_some_iff.1 hw).1
    omega
  | succ k ih =>
    intro i hk
    simp only [scanVar]
    cases hw : c[i]? with
    | none =>
      simp only [Bool.false_eq_true, false_iff]
      rintro ⟨j, w, hs, hw', _⟩
      have h1 := hs.ge
      have h2 := (List.getElem?_eq_some_iff.1 hw').1
      rw [List.getElem?_eq_none_iff] at hw
      omega
    | some w =>
      simp only
      by_cases hv : getDescriptor w = 0x86
      · rw [if_pos hv]
        exact ⟨fun _ => ⟨i, w, Sign.first, hw, hv⟩, fun _ => rfl⟩
      · rw [if_neg hv]
        have key : Some86 c i ↔ Some86 c (after i w) := by
          constructor
          · rintro ⟨j, w', hs, hw', hd⟩
            rcases hs.split with rfl | ⟨w2, hw2, hs2⟩
            · rw [hw] at hw'; obtain rfl := Option.some.inj hw'; exact absurd hd hv
            · rw [hw] at hw2; obtain rfl := Option.some.inj hw2; exact ⟨j, w', hs2, hw', hd⟩
          · rintro ⟨j, w', hs, hw', hd⟩
            exact ⟨j, w', Sign.cons hw hs, hw', hd⟩
        rw [key, isData_raw]
        cases hr : raw w with
        | true =>
          simp only [if_true]
          rw [show after i w = i + count w + 1 by simp [after, hr]; omega]
          exact ih _ (by omega)
        | false =>
          simp only [Bool.false_eq_true, if_false]
          rw [show after i w = i + 1 by simp [after, hr]]
          exact ih _ (by omega)

theorem scanVar_var {c : Code} : scanVar c c.length 1 = true ↔ ∃ j v, VarAt c j v := by
  rw [scanVar_iff _ _ (by omega)]
  constructor
  · rintro ⟨j, w, hs, hw, hd⟩
    exact ⟨j, _, hs, w, hw, hd, rfl⟩
  · rintro ⟨j, v, hs, w, hw, hd, _⟩
    exact ⟨j, w, hs, hw, hd⟩

/-! ## Is there a variable? -/

theorem get_prefix {α : Type} {h h' : List α} (hp : h <+: h') {p : Nat} {o : α} (ho : h[p]? = some o) :
    h'[p]? = some o := by
  obtain ⟨t, rfl⟩ := hp
  rw [List.getElem?_append_left (List.getElem?_eq_some_iff.1 ho).1]
  exact ho

theorem anyRef_spec {g : Nat → Option Bool} {P : Nat → Prop} {refs : List Nat} {b : Bool}
    (h : anyRef g refs = some b) (hg : ∀ r, r ∈ refs → ∀ b, g r = some b → (b = true ↔ P r)) :
    b = true ↔ ∃ r, r ∈ refs ∧ P r := by
  induction refs with
  | nil =>
    simp only [anyRef, Option.some.injEq] at h
    subst h
    simp
  | cons r rs ih =>
    simp only [anyRef, Option.bind_eq_some_iff] at h
    obtain ⟨b', hb', h⟩ := h
    have hr := hg r (by simp) b' hb'
    cases b' with
    | true =>
      simp only [if_true, Option.some.injEq] at h
      subst h
      exact ⟨fun _ => ⟨r, by simp, hr.1 rfl⟩, fun _ => rfl⟩
    | false =>
      simp only [Bool.false_eq_true, if_false] at h
      rw [ih h fun r hr => hg r (by simp [hr])]
      constructor
      · rintro ⟨x, h1, h2⟩; exact ⟨x, by simp [h1], h2⟩
      · rintro ⟨x, h1, h2⟩
        rcases List.mem_cons.1 h1 with rfl | h1
        · exact absurd (hr.2 h2) (by decide)
        · exact ⟨x, h1, h2⟩

theorem need_spec {K : Kinds} {n : Nat} {h0 : List Obj} : ∀ f h p b, h0 <+: h → Pattern K n h0 p →
    needBinding K h f p = some b → (b = true ↔ HasVar K h0 p) := by
  intro f
  induction f with
  | zero => intro h p b _ _ hb; simp [needBinding] at hb
  | succ f ih =>
    intro h p b hp hP hb
    cases hP with
    | @fixed _ o w ho hw hk =>
      simp only [needBinding, get_prefix hp ho, hw, if_pos ((fixed_iff K w).2 hk), Option.some.injEq] at hb
      subst hb
      simp only [Bool.false_eq_true, false_iff]
      intro hv
      cases hv with
      | here ho' hw' hk' =>
        rw [ho] at ho'; obtain rfl := Option.some.inj ho'
        rw [hw] at hw'; obtain rfl := Option.some.inj hw'
        exact hk' hk
      | ref ho' hw' hk' =>
        rw [ho] at ho'; obtain rfl := Option.some.inj ho'
        rw [hw] at hw'; obtain rfl := Option.some.inj hw'
        exact hk' hk
    | @mk _ o w ho hw hdata hvar href =>
      simp only [needBinding, get_prefix hp ho, hw] at hb
      by_cases hk : fixed K w = true
      · rw [if_pos hk, Option.some.injEq] at hb
        subst hb
        simp only [Bool.false_eq_true, false_iff]
        intro hv
        cases hv with
        | here ho' hw' hk' =>
          rw [ho] at ho'; obtain rfl := Option.some.inj ho'
          rw [hw] at hw'; obtain rfl := Option.some.inj hw'
          exact hk' ((fixed_iff K w).1 hk)
        | ref ho' hw' hk' =>
          rw [ho] at ho'; obtain rfl := Option.some.inj ho'
          rw [hw] at hw'; obtain rfl := Option.some.inj hw'
          exact hk' ((fixed_iff K w).1 hk)
      · rw [if_neg hk] at hb
        have hk' : asOpcode w ∉ [K.ont, K.ent, K.mdl, K.cst] := fun h => hk ((fixed_iff K w).2 h)
        simp only [Option.map_eq_some_iff] at hb
        obtain ⟨b', hb', rfl⟩ := hb
        rw [Bool.or_eq_true, anyRef_spec hb' (fun r hr b => ih h r b hp (href r hr)), scanVar_var]
        constructor
        · rintro (⟨r, hr, hv⟩ | ⟨j, v, hv⟩)
          · exact HasVar.ref ho hw hk' hr hv
          · exact HasVar.here ho hw hk' hv
        · intro hv
          cases hv with
          | here ho' hw' hk' hv =>
            rw [ho] at ho'; obtain rfl := Option.some.inj ho'
            exact Or.inr ⟨_, _, hv⟩
          | ref ho' hw' hk' hr hv =>
            rw [ho] at ho'; obtain rfl := Option.some.inj ho'
            exact Or.inl ⟨_, hr, hv⟩

theorem anyRef_total {g : Nat → Option Bool} {refs : List Nat} (h : ∀ r, r ∈ refs → (g r).isSome) :
    (anyRef g refs).isSome := by
  induction refs with
  | nil => rfl
  | cons r rs ih =>
    obtain ⟨b, hb⟩ := Option.isSome_iff_exists.1 (h r (by simp))
    simp only [anyRef, hb, Option.bind_some]
    cases b
    · exact ih fun r hr => h r (by simp [hr])
    · rfl

theorem Ev.list {α : Type} {P : α → Nat → Prop} (l : List α) (h : ∀ a, a ∈ l → Ev (P a)) :
    Ev fun g => ∀ a, a ∈ l → P a g := by
  induction l with
  | nil => exact Ev.of fun g a ha => by simp at ha
  | cons x l ih =>
    refine ((h x (by simp)).and (ih fun a ha => h a (by simp [ha]))).mono fun g hg a ha => ?_
    rcases List.mem_cons.1 ha with rfl | ha
    · exact hg.1
    · exact hg.2 a ha

theorem need_total {K : Kinds} {n : Nat} {h0 : List Obj} {p : Nat} (hP : Pattern K n h0 p) :
    Ev fun f => ∀ h, h0 <+: h → (needBinding K h f p).isSome := by
  induction hP with
  | @fixed p o w ho hw hk =>
    refine (Ev.of fun _ => trivial).succ.mono fun g hg h hp => ?_
    obtain ⟨g', rfl, -⟩ := hg
    simp only [needBinding, get_prefix hp ho, hw, if_pos ((fixed_iff K w).2 hk), Option.isSome_some]
  | @mk p o w ho hw hdata hvar href ih =>
    refine (Ev.list o.refs ih).succ.mono fun g hg h hp => ?_
    obtain ⟨g', rfl, hg'⟩ := hg
    simp only [needBinding, get_prefix hp ho, hw]
    by_cases hk : fixed K w = true
    · rw [if_pos hk]; rfl
    · rw [if_neg hk, Option.isSome_map]
      exact anyRef_total fun r hr => hg' r hr h hp

/-! ## The words -/

theorem copyData_spec {c : Code} : ∀ n j o o', copyData c n j o = some o' →
    o.code.length ≤ o'.code.length ∧ (0 < n → j + n ≤ o'.code.length) ∧ o'.refs = o.refs ∧
    (∀ q, q < o.code.length → (q < j ∨ j + n ≤ q) → o'.code[q]? = o.code[q]?) ∧
    (∀ q, j ≤ q → q < j + n → o'.code[q]? = c[q]?) := by
  intro n
  induction n with
  | zero =>
    intro j o o' h
    simp only [copyData, Option.some.injEq] at h
    subst h
    exact ⟨Nat.le_refl _, fun h => absurd h (Nat.lt_irrefl _), rfl, fun _ _ _ => rfl, fun q h1 h2 => by omega⟩
  | succ n ih =>
    intro j o o' h
    simp only [copyData] at h
    cases hw : c[j]? with
    | none => rw [hw] at h; simp at h
    | some w =>
      rw [hw] at h
      obtain ⟨a1, a2, a3, a4, a5⟩ := ih _ _ _ h
      have hl := put_len o j w
      refine ⟨by omega, fun _ => ?_, a3, ?_, ?_⟩
      · by_cases h0 : 0 < n
        · have := a2 h0; omega
        · omega
      · intro q hq hor
        rw [a4 q (by omega) (by omega), put_ne o _ (by omega) hq]
      · intro q h1 h2
        by_cases hq : q = j
        · subst hq; rw [a4 q (by omega) (by omega), put_self, hw]
        · exact a5 q (by omega) (by omega)

theorem copyData_total {c : Code} : ∀ n j o, j + n ≤ c.length → (copyData c n j o).isSome := by
  intro n
  induction n with
  | zero => intro j o _; rfl
  | succ n ih =>
    intro j o h
    have hg := List.getElem?_eq_getElem (show j < c.length by omega)
    simp only [copyData, hg]
    exact ih _ _ (by omega)

/-- Word `j` is a variable, reading from `i` on. -/
def VarFrom (c : Code) (i j v : Nat) : Prop :=
  Sign c i j ∧ ∃ w, c[j]? = some w ∧ getDescriptor w = 0x86 ∧ (asIndex w).toNat = v

/-- What is written for word `j`. -/
def WordOk (m : BMap) (c : Code) (i : Nat) (c' : Code) (rs : List Nat) (j : Nat) : Prop :=
  ((∀ v, ¬ VarFrom c i j v) → c'[j]? = c[j]?) ∧
  (∀ v, VarFrom c i j v → ∃ s w, m.slots[v]? = some s ∧ c'[j]? = some w ∧ Written c' rs w s)

theorem bindWords_spec {f : Nat} {m : BMap} {c : Code}
    (hgood : ∀ (v : Nat) s, m.slots[v]? = some s → Storable s) :
    ∀ k i o e o' e', bindWords f m c k i o e = some (o', e') → c.length ≤ i + k → c.length ≤ e →
      (∀ j w, Sign c i j → c[j]? = some w → raw w = true → j + count w < c.length) →
      e ≤ e' ∧ o.code.length ≤ o'.code.length ∧ (e < e' → e' ≤ o'.code.length) ∧
      (i < c.length → c.length ≤ o'.code.length) ∧ o.refs <+: o'.refs ∧
      (∀ q, q < o.code.length → (q < i ∨ (c.length ≤ q ∧ q < e)) → o'.code[q]? = o.code[q]?) ∧
      (e' ≤ 4096 → o'.refs.length ≤ 4096 → ∀ c' rs,
        (∀ q, (i ≤ q ∧ q < c.length) ∨ (e ≤ q ∧ q < e') → c'[q]? = o'.code[q]?) → o'.refs <+: rs →
        ∀ j, i ≤ j → j < c.length → WordOk m c i c' rs j) := by
  intro k
  induction k with
  | zero =>
    intro i o e o' e' h hk _ _
    simp only [bindWords, Option.some.injEq, Prod.mk.injEq] at h
    obtain ⟨rfl, rfl⟩ := h
    exact ⟨Nat.le_refl _, Nat.le_refl _, fun h => absurd h (Nat.lt_irrefl _), fun h => by omega,
      List.prefix_refl _, fun _ _ _ => rfl, fun _ _ _ _ _ _ j h1 h2 => by omega⟩
  | succ k ih =>
    intro i o e o' e' h hk hce hdata
    simp only [bindWords] at h
    cases hw : c[i]? with
    | none =>
      rw [hw] at h
      simp only [Option.some.injEq, Prod.mk.injEq] at h
      obtain ⟨rfl, rfl⟩ := h
      rw [List.getElem?_eq_none_iff] at hw
      exact ⟨Nat.le_refl _, Nat.le_refl _, fun h => absurd h (Nat.lt_irrefl _), fun h => by omega,
        List.prefix_refl _, fun _ _ _ => rfl, fun _ _ _ _ _ _ j h1 h2 => by omega⟩
    | some w =>
      rw [hw] at h
      simp only at h
      have hil := (List.getElem?_eq_some_iff.1 hw).1
      -- a step to `after i w`, then the rest
      have hstep : ∃ o1 e1, bindWords f m c k (after i w) o1 e1 = some (o', e') ∧
          c.length ≤ after i w + k ∧ e ≤ e1 ∧ o.code.length ≤ o1.code.length ∧
          (e < e1 → e1 ≤ o1.code.length) ∧ after i w ≤ o1.code.length ∧ o.refs <+: o1.refs ∧
          (∀ q, q < o.code.length → (q < i ∨ (after i w ≤ q ∧ q < e)) → o1.code[q]? = o.code[q]?) ∧
          (e1 ≤ 4096 → o1.refs.length ≤ 4096 → ∀ c' rs,
            (∀ q, (i ≤ q ∧ q < after i w) ∨ (e ≤ q ∧ q < e1) → c'[q]? = o1.code[q]?) → o1.refs <+: rs →
            (getDescriptor w = 0x86 → ∃ s w', m.slots[(asIndex w).toNat]? = some s ∧ c'[i]? = some w' ∧
              Written c' rs w' s) ∧
            (getDescriptor w ≠ 0x86 → ∀ q, i ≤ q → q < after i w → c'[q]? = c[q]?)) := by
        by_cases hv : getDescriptor w = 0x86
        · rw [if_pos hv] at h
          have ha : after i w = i + 1 := by simp [after, raw_not_var hv]
          cases hs : m.slots[(asIndex w).toNat]? with
          | none => rw [show ix w = (asIndex w).toNat from rfl, hs] at h; simp at h
          | some s =>
            rw [show ix w = (asIndex w).toNat from rfl, hs] at h
            simp only [Option.bind_eq_some_iff] at h
            obtain ⟨⟨o1, e1⟩, h1, h2⟩ := h
            have W := valuate_spec h1 (hgood _ _ hs) (by omega)
            have wl := W.wlen
            refine ⟨o1, e1, by rw [ha]; exact h2, by omega, W.grows, W.len, W.room, by omega,
              W.refs, ?_, ?_⟩
            · intro q hq hor
              exact W.kept q (by omega) (by omega) hq
            · intro h4 hr c' rs hc hrs
              refine ⟨fun _ => ?_, fun hn => absurd hv hn⟩
              obtain ⟨w', hw', hok⟩ := W.holds h4 hr c' rs (by
                intro q hq
                apply hc
                omega) hrs
              exact ⟨s, w', rfl, hw', hok⟩
        · rw [if_neg hv, isData_raw] at h
          cases hr : raw w with
          | true =>
            have ha : after i w = i + count w + 1 := by simp [after, hr]; omega
            rw [hr] at h
            simp only [if_true, Option.bind_eq_some_iff] at h
            obtain ⟨o1, h1, h2⟩ := h
            obtain ⟨a1, a2, a3, a4, a5⟩ := copyData_spec _ _ _ _ h1
            have hl := put_len o i w
            have hd := hdata i w Sign.first hw hr
            refine ⟨o1, e, by rw [ha]; exact h2, by omega, Nat.le_refl _, by omega,
              fun h => absurd h (Nat.lt_irrefl _), ?_, ?_, ?_, ?_⟩
            · by_cases h0 : 0 < count w
              · have := a2 h0; omega
              · omega
            · rw [a3]; exact List.prefix_refl _
            · intro q hq hor
              rw [a4 q (by omega) (by omega), put_ne o _ (by omega) hq]
            · intro _ _ c' rs hc _
              refine ⟨fun h => absurd h hv, fun _ q q1 q2 => ?_⟩
              rw [hc q (Or.inl ⟨q1, q2⟩)]
              by_cases hq : q = i
              · subst hq; rw [a4 q (by omega) (by omega), put_self, hw]
              · exact a5 q (by omega) (by omega)
          | false =>
            have ha : after i w = i + 1 := by simp [after, hr]
            rw [hr] at h
            simp only [Bool.false_eq_true, if_false] at h
            have hl := put_len o i w
            refine ⟨o.put i w, e, by rw [ha]; exact h, by omega, Nat.le_refl _, by omega,
              fun h => absurd h (Nat.lt_irrefl _), by omega, List.prefix_refl _, ?_, ?_⟩
            · intro q hq hor
              rw [put_ne o _ (by omega) hq]
            · intro _ _ c' rs hc _
              refine ⟨fun h => absurd h hv, fun _ q q1 q2 => ?_⟩
              rw [hc q (Or.inl ⟨q1, q2⟩)]
              obtain rfl : q = i := by omega
              rw [put_self, hw]
      obtain ⟨o1, e1, h2, hk', g, l, rm, al, rf, kp, ho⟩ := hstep
      have hai : after i w = i + 1 + (after i w - (i + 1)) := by simp only [after]; omega
      have hac : after i w ≤ c.length := by
        simp only [after]
        cases hr : raw w with
        | true => have := hdata i w Sign.first hw hr; simp only [if_true]; omega
        | false => simp only [Bool.false_eq_true, if_false]; omega
      have hih : e1 ≤ e' ∧ o1.code.length ≤ o'.code.length ∧ (e1 < e' → e' ≤ o'.code.length) ∧
          (after i w < c.length → c.length ≤ o'.code.length) ∧ o1.refs <+: o'.refs ∧
          (∀ q, q < o1.code.length → (q < after i w ∨ (c.length ≤ q ∧ q < e1)) → o'.code[q]? = o1.code[q]?) ∧
          (e' ≤ 4096 → o'.refs.length ≤ 4096 → ∀ c' rs,
            (∀ q, (after i w ≤ q ∧ q < c.length) ∨ (e1 ≤ q ∧ q < e') → c'[q]? = o'.code[q]?) → o'.refs <+: rs →
            ∀ j, after i w ≤ j → j < c.length → WordOk m c (after i w) c' rs j) := by
        exact ih _ _ _ _ _ h2 hk' (by omega) (fun j w' hj => hdata j w' (Sign.cons hw hj))
      obtain ⟨q1, q2, q3, q4, q5, q6, q7⟩ := hih
      refine ⟨by omega, by omega, fun _ => ?_, fun _ => ?_, prefix_trans rf q5, ?_, ?_⟩
      · by_cases he : e1 < e'
        · exact q3 he
        · have := rm (by omega); omega
      · by_cases ha : after i w < c.length
        · exact q4 ha
        · omega
      · intro q hq hor
        rw [q6 q (by omega) (by omega), kp q hq (by omega)]
      · intro h4 hr c' rs hc hrs j hj hjl
        have hrl := q5.length_le
        have hd := ho (by omega) (by omega) c' rs (by
          intro q hq
          rw [hc q (by omega)]
          rcases hq with ⟨x1, x2⟩ | ⟨x1, x2⟩
          · exact q6 q (by omega) (by omega)
          · exact q6 q (by have := rm (by omega); omega) (by omega)) (prefix_trans q5 hrs)
        by_cases hja : j < after i w
        · have hvi : ∀ v, VarFrom c i j v → j = i := by
            rintro v ⟨hs, _⟩
            rcases hs.split with rfl | ⟨w2, hw2, hs2⟩
            · rfl
            · rw [hw] at hw2; obtain rfl := Option.some.inj hw2
              have := hs2.ge; omega
          constructor
          · intro hn
            by_cases hv : getDescriptor w = 0x86
            · have : after i w = i + 1 := by simp [after, raw_not_var hv]
              obtain rfl : j = i := by omega
              exact absurd ⟨Sign.first, w, hw, hv, rfl⟩ (hn _)
            · exact hd.2 hv j hj hja
          · intro v hv
            obtain rfl := hvi v hv
            obtain ⟨_, w2, hw2, hd2, rfl⟩ := hv
            rw [hw] at hw2; obtain rfl := Option.some.inj hw2
            exact hd.1 hd2
        · obtain ⟨k1, k2⟩ := q7 h4 hr c' rs (fun q hq => hc q (by omega)) hrs j (by omega) hjl
          have hiff : ∀ v, VarFrom c i j v ↔ VarFrom c (after i w) j v := by
            intro v
            constructor
            · rintro ⟨hs, hx⟩
              rcases hs.split with rfl | ⟨w2, hw2, hs2⟩
              · omega
              · rw [hw] at hw2; obtain rfl := Option.some.inj hw2
                exact ⟨hs2, hx⟩
            · rintro ⟨hs, hx⟩
              exact ⟨Sign.cons hw hs, hx⟩
          exact ⟨fun hn => k1 fun v hv => hn v ((hiff v).2 hv), fun v hv => k2 v ((hiff v).1 hv)⟩

theorem bindWords_total {m : BMap} {c : Code} (hgood : ∀ (v : Nat) s, m.slots[v]? = some s → Storable s) :
    ∀ k i, (∀ j w, Sign c i j → c[j]? = some w → raw w = true → j + count w < c.length) →
      (∀ j v, VarFrom c i j v → v < m.slots.length) →
      Ev fun f => ∀ o e, (bindWords f m c k i o e).isSome := by
  intro k
  induction k with
  | zero => intro i _ _; exact Ev.of fun _ _ _ => rfl
  | succ k ih =>
    intro i hdata hvar
    cases hw : c[i]? with
    | none => exact Ev.of fun f o e => by simp only [bindWords, hw, Option.isSome_some]
    | some w =>
      have hr := ih (after i w) (fun j w' hj => hdata j w' (Sign.cons hw hj))
        (fun j v hv => hvar j v ⟨Sign.cons hw hv.1, hv.2⟩)
      by_cases hv : getDescriptor w = 0x86
      · have ha : after i w = i + 1 := by simp [after, raw_not_var hv]
        have hs := List.getElem?_eq_getElem (hvar i _ ⟨Sign.first, w, hw, hv, rfl⟩)
        refine (hr.and (valuate_total (hgood _ _ hs))).mono fun f hf o e => ?_
        simp only [bindWords, hw]
        rw [if_pos hv, show ix w = (asIndex w).toNat from rfl, hs]
        simp only
        obtain ⟨r, hr⟩ := Option.isSome_iff_exists.1 (hf.2 o i e)
        rw [hr, ← ha]
        exact hf.1 _ _
      · refine hr.mono fun f hf o e => ?_
        simp only [bindWords, hw]
        rw [if_neg hv, isData_raw]
        cases hrw : raw w with
        | true =>
          have ha : after i w = i + count w + 1 := by simp [after, hrw]; omega
          have := hdata i w Sign.first hw hrw
          obtain ⟨r, hr⟩ := Option.isSome_iff_exists.1
            (copyData_total (c := c) (count w) (i + 1) (o.put i w) (by omega))
          simp only [if_true, hr, Option.bind_some]
          rw [← ha]
          exact hf _ _
        | false =>
          have ha : after i w = i + 1 := by simp [after, hrw]
          simp only [Bool.false_eq_true, if_false]
          rw [← ha]
          exact hf _ _

/-! ## The pattern -/

theorem Bound.mono {K : Kinds} {m : BMap} {h0 h h' : List Obj} {p p' : Nat} (hp : h <+: h')
    (hb : Bound K m h0 h p p') : Bound K m h0 h' p p' := by
  induction hb with
  | same hn => exact Bound.same hn
  | new hv ho ho' hnew hcode hlen hrefs ih => exact Bound.new hv ho (get_prefix hp ho') hnew hcode hlen ih

theorem bindRefs_spec {K : Kinds} {m : BMap} {n : Nat} {h0 : List Obj} {f : Nat}
    (ih : ∀ h p h' p', bindPattern K m f h p = some (h', p') → h0 <+: h → Pattern K n h0 p →
      h <+: h' ∧ Bound K m h0 h' p p') :
    ∀ refs h rs h' rs', bindRefs (fun h => needBinding K h f) (bindPattern K m f) refs h rs = some (h', rs') →
      h0 <+: h → (∀ r, r ∈ refs → Pattern K n h0 r) →
      h <+: h' ∧ ∃ t, rs' = rs ++ t ∧ t.length = refs.length ∧
        ∀ (i : Nat) r r', refs[i]? = some r → t[i]? = some r' → Bound K m h0 h' r r' := by
  intro refs
  induction refs with
  | nil =>
    intro h rs h' rs' hb _ _
    simp only [bindRefs, Option.some.injEq, Prod.mk.injEq] at hb
    obtain ⟨rfl, rfl⟩ := hb
    exact ⟨List.prefix_refl _, [], by simp, rfl, fun i r r' h => by simp at h⟩
  | cons r refs ihr =>
    intro h rs h' rs' hb hp hP
    simp only [bindRefs, Option.bind_eq_some_iff] at hb
    obtain ⟨b, hbn, hb⟩ := hb
    have hn := need_spec f h r b hp (hP r (by simp)) hbn
    have hone : ∃ h1 r1, h <+: h1 ∧ Bound K m h0 h1 r r1 ∧
        bindRefs (fun h => needBinding K h f) (bindPattern K m f) refs h1 (rs ++ [r1]) = some (h', rs') := by
      cases b with
      | true =>
        simp only [if_true, Option.bind_eq_some_iff] at hb
        obtain ⟨⟨h1, r1⟩, h2, h3⟩ := hb
        obtain ⟨a1, a2⟩ := ih _ _ _ _ h2 hp (hP r (by simp))
        exact ⟨h1, r1, a1, a2, h3⟩
      | false =>
        simp only [Bool.false_eq_true, if_false] at hb
        exact ⟨h, r, List.prefix_refl _, Bound.same (fun hv => absurd (hn.2 hv) (by decide)), hb⟩
    obtain ⟨h1, r1, p1, b1, hrest⟩ := hone
    obtain ⟨p2, t, ht, hl, hall⟩ := ihr _ _ _ _ hrest (hp.trans p1) (fun r hr => hP r (by simp [hr]))
    refine ⟨p1.trans p2, r1 :: t, by rw [ht]; simp, by simp [hl], fun i a a' ha ha' => ?_⟩
    match i with
    | 0 =>
      simp only [List.getElem?_cons_zero, Option.some.injEq] at ha ha'
      subst ha ha'
      exact b1.mono p2
    | i + 1 =>
      simp only [List.getElem?_cons_succ] at ha ha'
      exact hall i a a' ha ha'

theorem bindPattern_spec {K : Kinds} {m : BMap} {n : Nat} {h0 : List Obj}
    (hgood : ∀ (v : Nat) s, m.slots[v]? = some s → Storable s) :
    ∀ f h p h' p', bindPattern K m f h p = some (h', p') → h0 <+: h → Pattern K n h0 p →
      h <+: h' ∧ Bound K m h0 h' p p' := by
  intro f
  induction f with
  | zero => intro h p h' p' hb; simp [bindPattern] at hb
  | succ f ih =>
    intro h p h' p' hb hp hP
    simp only [bindPattern, Option.bind_eq_some_iff] at hb
    obtain ⟨b, hbn, hb⟩ := hb
    have hn := need_spec f h p b hp hP hbn
    cases b with
    | false =>
      simp only [Bool.false_eq_true, if_false, Option.some.injEq, Prod.mk.injEq] at hb
      obtain ⟨rfl, rfl⟩ := hb
      exact ⟨List.prefix_refl _, Bound.same (fun hv => absurd (hn.2 hv) (by decide))⟩
    | true =>
      have hv := hn.1 rfl
      have hM : ∃ o w, h0[p]? = some o ∧ o.code[0]? = some w ∧
          (∀ j w, Sign o.code 1 j → o.code[j]? = some w → raw w = true → j + count w < o.code.length) ∧
          (∀ r, r ∈ o.refs → Pattern K n h0 r) := by
        cases hP with
        | @fixed _ o w ho hw hk =>
          exfalso
          cases hv with
          | here ho' hw' hk' =>
            rw [ho] at ho'; obtain rfl := Option.some.inj ho'
            rw [hw] at hw'; obtain rfl := Option.some.inj hw'
            exact hk' hk
          | ref ho' hw' hk' =>
            rw [ho] at ho'; obtain rfl := Option.some.inj ho'
            rw [hw] at hw'; obtain rfl := Option.some.inj hw'
            exact hk' hk
        | @mk _ o w ho hw hdata hvar href => exact ⟨o, w, ho, hw, hdata, href⟩
      obtain ⟨o, w, ho, hw, hdata, href⟩ := hM
      simp only [if_true, get_prefix hp ho, hw, Option.bind_eq_some_iff, Option.map_eq_some_iff] at hb
      obtain ⟨⟨h1, rs⟩, hr, ⟨o', e'⟩, hwd, heq⟩ := hb
      simp only [Prod.mk.injEq] at heq hwd
      obtain ⟨rfl, rfl⟩ := heq
      obtain ⟨p1, t, ht, htl, hall⟩ := bindRefs_spec ih _ _ _ _ _ hr hp href
      rw [List.nil_append] at ht
      subst ht
      have hol : 0 < o.code.length := (List.getElem?_eq_some_iff.1 hw).1
      obtain ⟨q1, q2, q3, q4, q5, q6, q7⟩ := bindWords_spec hgood _ _ _ _ _ _ hwd (by omega) (Nat.le_refl _) hdata
      have hpre : h1 <+: h1 ++ [o'] := List.prefix_append _ _
      simp only [List.length_cons, List.length_nil] at q2 q6
      refine ⟨p1.trans hpre, Bound.new (o := o) (o' := o') hv ho (by simp) ?_ ?_ ?_ ?_⟩
      · exact (hp.trans p1).length_le
      · intro h4 hr4
        have hlen : o.code.length ≤ o'.code.length := by
          by_cases h1 : 1 < o.code.length
          · exact q4 h1
          · omega
        have he' : e' ≤ 4096 := by
          by_cases he : o.code.length < e'
          · have := q3 he; omega
          · omega
        have hk := q7 he' hr4 o'.code o'.refs (fun _ _ => rfl) (List.prefix_refl _)
        refine ⟨hlen, fun j hj hnv => ?_, fun j v hjv => ?_⟩
        · by_cases hj0 : j = 0
          · subst hj0
            rw [q6 0 (by omega) (Or.inl (by omega)), hw]
            rfl
          · exact (hk j (by omega) hj).1 hnv
        · have h1 := hjv.1.ge
          obtain ⟨w', hw', _⟩ := hjv.2
          exact (hk j h1 (List.getElem?_eq_some_iff.1 hw').1).2 v hjv
      · have := q5.length_le; simp only at this; omega
      · intro i r r' hri hri'
        have hit : i < rs.length := by
          have := (List.getElem?_eq_some_iff.1 hri).1; omega
        have : rs[i]? = some r' := by
          have h2 := get_prefix q5 (List.getElem?_eq_getElem hit)
          rw [hri'] at h2
          rw [List.getElem?_eq_getElem hit, h2]
        exact (hall i r r' hri this).mono hpre

theorem bindRefs_total {K : Kinds} {m : BMap} {n : Nat} {h0 : List Obj} {f : Nat}
    (hgood : ∀ (v : Nat) s, m.slots[v]? = some s → Storable s) :
    ∀ refs h rs, h0 <+: h → (∀ r, r ∈ refs → Pattern K n h0 r) →
      (∀ r, r ∈ refs → ∀ h, h0 <+: h → (needBinding K h f r).isSome) →
      (∀ r, r ∈ refs → ∀ h, h0 <+: h → (bindPattern K m f h r).isSome) →
      (bindRefs (fun h => needBinding K h f) (bindPattern K m f) refs h rs).isSome := by
  intro refs
  induction refs with
  | nil => intro h rs _ _ _ _; rfl
  | cons r refs ih =>
    intro h rs hp hP hN hB
    obtain ⟨b, hb⟩ := Option.isSome_iff_exists.1 (hN r (by simp) h hp)
    simp only [bindRefs, hb, Option.bind_some]
    have hrest := fun h1 rs (hp1 : h0 <+: h1) => ih h1 rs hp1 (fun r hr => hP r (by simp [hr]))
      (fun r hr => hN r (by simp [hr])) (fun r hr => hB r (by simp [hr]))
    cases b with
    | true =>
      obtain ⟨⟨h1, r1⟩, hx⟩ := Option.isSome_iff_exists.1 (hB r (by simp) h hp)
      simp only [if_true, hx, Option.bind_some]
      exact hrest _ _ (hp.trans (bindPattern_spec hgood _ _ _ _ _ hx hp (hP r (by simp))).1)
    | false =>
      simp only [Bool.false_eq_true, if_false]
      exact hrest _ _ hp

theorem bindPattern_total {K : Kinds} {m : BMap} {n : Nat} {h0 : List Obj} {p : Nat}
    (hgood : ∀ (v : Nat) s, m.slots[v]? = some s → Storable s) (hn : n ≤ m.slots.length)
    (hP : Pattern K n h0 p) : Ev fun f => ∀ h, h0 <+: h → (bindPattern K m f h p).isSome := by
  induction hP with
  | @fixed p o w ho hw hk =>
    have hP : Pattern K n h0 p := Pattern.fixed ho hw hk
    refine (need_total hP).succ.mono fun g hg h hp => ?_
    obtain ⟨g', rfl, hg'⟩ := hg
    obtain ⟨b, hb⟩ := Option.isSome_iff_exists.1 (hg' h hp)
    simp only [bindPattern, hb, Option.bind_some]
    cases b with
    | false => rfl
    | true =>
      exfalso
      have hv := (need_spec _ _ _ _ hp hP hb).1 rfl
      cases hv with
      | here ho' hw' hk' =>
        rw [ho] at ho'; obtain rfl := Option.some.inj ho'
        rw [hw] at hw'; obtain rfl := Option.some.inj hw'
        exact hk' hk
      | ref ho' hw' hk' =>
        rw [ho] at ho'; obtain rfl := Option.some.inj ho'
        rw [hw] at hw'; obtain rfl := Option.some.inj hw'
        exact hk' hk
  | @mk p o w ho hw hdata hvar href ih =>
    have hP : Pattern K n h0 p := Pattern.mk ho hw hdata hvar href
    have E1 := need_total hP
    have E2 := Ev.list o.refs fun r hr => need_total (href r hr)
    have E3 := Ev.list o.refs ih
    have E4 := bindWords_total hgood o.code.length 1 hdata (fun j v hv => Nat.lt_of_lt_of_le (hvar j v hv) hn)
    refine (E1.and (E2.and (E3.and E4))).succ.mono fun g hg h hp => ?_
    obtain ⟨g', rfl, g1, g2, g3, g4⟩ := hg
    obtain ⟨b, hb⟩ := Option.isSome_iff_exists.1 (g1 h hp)
    simp only [bindPattern, hb, Option.bind_some]
    cases b with
    | false => rfl
    | true =>
      simp only [if_true, get_prefix hp ho, hw]
      obtain ⟨x, hx⟩ := Option.isSome_iff_exists.1 (bindRefs_total hgood o.refs h [] hp href g2 g3)
      rw [hx]
      simp only [Option.bind_some, Option.isSome_map]
      exact g4 _ _

end Verif.Bind
