import Verif.Values.Model
import Verif.Words.Lemmas
import Verif.Atom.Lemmas
import Mathlib.Tactic.Choose

namespace Verif.Values
open Verif.Atom Verif.Words

/-! ## What a structure looks like -/

/-- What is found at a place of a structure: an atom, or a structure with its header. -/
inductive Seen
  | word (w : Word)
  | sub (h : Word)
  deriving DecidableEq, Repr

/-- Headers followed by plain data: strings, timestamps, durations. -/
def raw (h : Word) : Bool := getDescriptor h == 0xC6 || getDescriptor h == 0xC7 || getDescriptor h == 0xD0

/-- The place reached from the structure at `i` by the member numbers of the path. -/
def look (c : Code) : Nat → List Nat → Option Seen
  | i, [] => c[i]?.map .sub
  | i, k :: ks =>
    match c[i]? with
    | none => none
    | some h =>
      if k = 0 ∨ count h < k then none
      else
        match c[i + k]? with
        | none => none
        | some w =>
          if raw h then (if ks = [] then some (.word w) else none)
          else if getDescriptor w = 0x84 then look c (asIndex w).toNat ks
          else if ks = [] then some (.word w) else none

/-- A finite structure, all of it inside the code. -/
inductive Whole (c : Code) : Nat → Prop
  | mk {i : Nat} {h : Word} (hh : c[i]? = some h) (hp : getDescriptor h ≠ 0x84)
      (hall : i + count h < c.length)
      (hsub : raw h = false → ∀ k w, 1 ≤ k → k ≤ count h → c[i + k]? = some w → getDescriptor w = 0x84 →
        Whole c (asIndex w).toNat) : Whole c i

/-- None of the plain data of the structure has the leading byte of a pointer. -/
inductive Plain (c : Code) : Nat → Prop
  | mk {i : Nat} {h : Word} (hh : c[i]? = some h)
      (hraw : raw h = true → ∀ k w, 1 ≤ k → k ≤ count h → c[i + k]? = some w → getDescriptor w ≠ 0x84)
      (hsub : raw h = false → ∀ k w, 1 ≤ k → k ≤ count h → c[i + k]? = some w → getDescriptor w = 0x84 →
        Plain c (asIndex w).toNat) : Plain c i

theorem isPtr_iff (w : Word) : isPtr w = true ↔ getDescriptor w = 0x84 := by simp [isPtr]

theorem ip_ptr (n : Nat) : getDescriptor (ip n) = 0x84 := by
  unfold ip iPointer
  apply BitVec.eq_of_toNat_eq
  rw [getDescriptor_toNat, ptr_toNat]
  have h : Ty.num .I_PTR = 132 := by decide
  have h' : BitVec.toNat (132 : BitVec 8) = 132 := by decide
  rw [h, BitVec.toNat_ofNat]
  change _ = BitVec.toNat (132 : BitVec 8)
  rw [h']
  omega

theorem ix_ip (n : Nat) (h : n < 4096) : (asIndex (ip n)).toNat = n := by
  unfold ip iPointer
  rw [asIndex_toNat, ptr_toNat, BitVec.toNat_ofNat]
  omega

/-- What a copied structure consists of. -/
theorem look_of_members {src c : Code} {i e : Nat} {h : Word} (hs : src[i]? = some h) (hc : c[e]? = some h)
    (hraw : raw h = true → ∀ k w, 1 ≤ k → k ≤ count h → src[i + k]? = some w → getDescriptor w ≠ 0x84)
    (hm : ∀ k, 1 ≤ k → k ≤ count h → ∃ a, src[i + k]? = some a ∧
      (getDescriptor a = 0x84 → ∃ x, c[e + k]? = some (ip x) ∧ x < 4096 ∧
        ∀ p, look c x p = look src (asIndex a).toNat p) ∧
      (getDescriptor a ≠ 0x84 → c[e + k]? = some a)) :
    ∀ p, look c e p = look src i p := by
  intro p
  cases p with
  | nil => simp only [look, hs, hc]
  | cons k ks =>
    simp only [look, hs, hc]
    by_cases hk : k = 0 ∨ count h < k
    · rw [if_pos hk, if_pos hk]
    · rw [if_neg hk, if_neg hk]
      obtain ⟨a, ha, hptr, hatom⟩ := hm k (by omega) (by omega)
      rw [ha]
      by_cases hd : getDescriptor a = 0x84
      · obtain ⟨x, hx, hlt, hl⟩ := hptr hd
        rw [hx]
        have hr : raw h = false := by
          cases hr : raw h
          · rfl
          · exact absurd hd (hraw hr k a (by omega) (by omega) ha)
        simp only [hr, ip_ptr, hd, if_true, if_false, Bool.false_eq_true, ix_ip x hlt]
        exact hl ks
      · rw [hatom hd]
        simp only [hd, if_false]

theorem good_of_members {src c : Code} {i e : Nat} {h : Word} (hc : c[e]? = some h)
    (hnp : getDescriptor h ≠ 0x84)
    (hraw : raw h = true → ∀ k w, 1 ≤ k → k ≤ count h → src[i + k]? = some w → getDescriptor w ≠ 0x84)
    (hm : ∀ k, 1 ≤ k → k ≤ count h → ∃ a, src[i + k]? = some a ∧
      (getDescriptor a = 0x84 → ∃ x, c[e + k]? = some (ip x) ∧ x < 4096 ∧ Plain c x ∧ Whole c x) ∧
      (getDescriptor a ≠ 0x84 → c[e + k]? = some a)) :
    Plain c e ∧ Whole c e := by
  refine ⟨Plain.mk hc ?_ ?_, Whole.mk hc hnp ?_ ?_⟩
  · intro hr k w h1 h2 hw
    obtain ⟨a, ha, _, hat⟩ := hm k h1 h2
    have hd := hraw hr k a h1 h2 ha
    rw [hat hd] at hw
    obtain rfl : a = w := by simpa using hw
    exact hd
  · intro _ k w h1 h2 hw hd
    obtain ⟨a, ha, hpt, hat⟩ := hm k h1 h2
    by_cases hda : getDescriptor a = 0x84
    · obtain ⟨x, hx, hlt, hp, _⟩ := hpt hda
      rw [hx] at hw
      obtain rfl : ip x = w := by simpa using hw
      rw [ix_ip x hlt]; exact hp
    · rw [hat hda] at hw
      obtain rfl : a = w := by simpa using hw
      exact absurd hd hda
  · by_cases h0 : count h = 0
    · rw [h0]
      have := (List.getElem?_eq_some_iff.1 hc).1
      omega
    · obtain ⟨a, ha, hpt, hat⟩ := hm (count h) (by omega) (Nat.le_refl _)
      by_cases hda : getDescriptor a = 0x84
      · obtain ⟨x, hx, _⟩ := hpt hda
        exact (List.getElem?_eq_some_iff.1 hx).1
      · exact (List.getElem?_eq_some_iff.1 (hat hda)).1
  · intro _ k w h1 h2 hw hd
    obtain ⟨a, ha, hpt, hat⟩ := hm k h1 h2
    by_cases hda : getDescriptor a = 0x84
    · obtain ⟨x, hx, hlt, _, hp⟩ := hpt hda
      rw [hx] at hw
      obtain rfl : ip x = w := by simpa using hw
      rw [ix_ip x hlt]; exact hp
    · rw [hat hda] at hw
      obtain rfl : a = w := by simpa using hw
      exact absurd hd hda

/-! ## Sizes -/

/-- The words that the members of a structure take behind it when it is copied. -/
def sizeMembers (rec : Nat → Option Nat) (src : Code) (idx : Nat) : Nat → Nat → Option Nat
  | 0, _ => some 0
  | k + 1, i =>
    match src[idx + i]? with
    | none => none
    | some a =>
      if isPtr a then (rec (ix a)).bind fun n => (sizeMembers rec src idx k (i + 1)).map (n + ·)
      else sizeMembers rec src idx k (i + 1)

/-- The words that a structure takes when it is copied. -/
def size (src : Code) : Nat → Nat → Option Nat
  | 0, _ => none
  | f + 1, i =>
    match src[i]? with
    | none => none
    | some h => (sizeMembers (size src f) src i (count h + 1) 0).map (1 + count h + ·)

theorem copy_size {src : Code} : ∀ f d e j,
    (copyStructure src f d e j).map (·.2) = (size src f j).map (e + ·) := by
  intro f
  induction f with
  | zero => intro d e j; rfl
  | succ f ih =>
    intro d e j
    have key : ∀ start idx k i d e,
        (copyMembers (copyStructure src f) src idx start k i d e).map (·.2) =
          (sizeMembers (size src f) src idx k i).map (e + ·) := by
      intro start idx k
      induction k with
      | zero => intro i d e; simp [copyMembers, sizeMembers]
      | succ k ihk =>
        intro i d e
        simp only [copyMembers, sizeMembers]
        cases ha : src[idx + i]? with
        | none => rfl
        | some a =>
          simp only
          by_cases hp : isPtr a = true
          · rw [if_pos hp, if_pos hp]
            have h1 := ih (put d (start + i) (ip e)) e (ix a)
            cases hc : copyStructure src f (put d (start + i) (ip e)) e (ix a) with
            | none =>
              rw [hc] at h1
              cases hz : size src f (ix a) with
              | none => rfl
              | some n => rw [hz] at h1; simp at h1
            | some r =>
              rw [hc] at h1
              cases hz : size src f (ix a) with
              | none => rw [hz] at h1; simp at h1
              | some n =>
                rw [hz] at h1
                have h2 : r.2 = e + n := by simpa using h1
                simp only [Option.bind_some]
                rw [ihk, h2, Option.map_map]
                congr 1
                funext x
                simp only [Function.comp]
                omega
          · rw [if_neg hp, if_neg hp]
            exact ihk _ _ _
    simp only [copyStructure, size]
    cases hj : src[j]? with
    | none => rfl
    | some w =>
      simp only
      rw [key, Option.map_map]
      congr 1
      funext x
      simp only [Function.comp]
      omega

theorem size_of_copy {src : Code} {f : Nat} {d : Code} {e j : Nat} {d' : Code} {e' : Nat}
    (h : copyStructure src f d e j = some (d', e')) : ∃ n, size src f j = some n ∧ e' = e + n := by
  have := copy_size (src := src) f d e j
  rw [h] at this
  cases hz : size src f j with
  | none => rw [hz] at this; simp at this
  | some n => rw [hz] at this; exact ⟨n, rfl, by simpa using this⟩

theorem copy_of_size {src : Code} {f j n : Nat} (h : size src f j = some n) (d : Code) (e : Nat) :
    ∃ d', copyStructure src f d e j = some (d', e + n) := by
  have := copy_size (src := src) f d e j
  rw [h] at this
  cases hz : copyStructure src f d e j with
  | none => rw [hz] at this; simp at this
  | some r =>
    rw [hz] at this
    refine ⟨r.1, ?_⟩
    have h2 : r.2 = e + n := by simpa using this
    rw [← h2]

theorem sizeMembers_eq {src c : Code} {f i e : Nat} : ∀ k j,
    (∀ m, j ≤ m → m < j + k → ∃ a, src[i + m]? = some a ∧
      (getDescriptor a = 0x84 → ∃ x, c[e + m]? = some (ip x) ∧ x < 4096 ∧
        size c f x = size src f (asIndex a).toNat) ∧
      (getDescriptor a ≠ 0x84 → c[e + m]? = some a)) →
    sizeMembers (size c f) c e k j = sizeMembers (size src f) src i k j := by
  intro k
  induction k with
  | zero => intro j _; rfl
  | succ k ih =>
    intro j hm
    obtain ⟨a, ha, hpt, hat⟩ := hm j (Nat.le_refl _) (by omega)
    have ih' := ih (j + 1) (fun m h1 h2 => hm m (by omega) (by omega))
    simp only [sizeMembers, ha]
    by_cases hd : getDescriptor a = 0x84
    · obtain ⟨x, hx, hlt, hsz⟩ := hpt hd
      simp only [hx, (isPtr_iff _).2 hd, (isPtr_iff _).2 (ip_ptr x), if_true, ix, ix_ip x hlt, hsz, ih']
    · have : isPtr a = false := by simpa [isPtr] using hd
      simp only [hat hd, this, Bool.false_eq_true, if_false, ih']

/-- Facts about a copy, `c` being any code that agrees with the result where the copy was written. -/
structure Copied (f : Nat) (src d : Code) (e j : Nat) (d' : Code) (e' : Nat) : Prop where
  grows : e < e'
  len : d.length ≤ d'.length
  room : e' ≤ d'.length
  kept : ∀ q, q < e → q < d.length → d'[q]? = d[q]?
  same : e' ≤ 4096 → ∀ c : Code, (∀ q, e ≤ q → q < e' → c[q]? = d'[q]?) →
    (∀ p, look c e p = look src j p) ∧ Plain c e ∧ Whole c e ∧ size c f e = size src f j

theorem copyMembers_spec {src : Code} {f idx start : Nat}
    (ih : ∀ d e j d' e', copyStructure src f d e j = some (d', e') → Plain src j → Whole src j → Copied f src d e j d' e') :
    ∀ k i d e d' e', copyMembers (copyStructure src f) src idx start k i d e = some (d', e') →
      start + i + k ≤ e →
      (∀ m a, i ≤ m → m < i + k → src[idx + m]? = some a → getDescriptor a = 0x84 →
        Plain src (asIndex a).toNat ∧ Whole src (asIndex a).toNat) →
      e ≤ e' ∧ d.length ≤ d'.length ∧ (e < e' → e' ≤ d'.length) ∧ (0 < k → start + i + k ≤ d'.length) ∧
      (∀ q, q < d.length → (q < start + i ∨ (start + i + k ≤ q ∧ q < e)) → d'[q]? = d[q]?) ∧
      (e' ≤ 4096 → ∀ c : Code, (∀ q, (start + i ≤ q ∧ q < start + i + k) ∨ (e ≤ q ∧ q < e') → c[q]? = d'[q]?) →
        ∀ m, i ≤ m → m < i + k → ∃ a, src[idx + m]? = some a ∧
          (getDescriptor a = 0x84 → ∃ x, c[start + m]? = some (ip x) ∧ x < 4096 ∧
            (∀ p, look c x p = look src (asIndex a).toNat p) ∧ Plain c x ∧ Whole c x ∧
              size c f x = size src f (asIndex a).toNat) ∧
          (getDescriptor a ≠ 0x84 → c[start + m]? = some a)) := by
  intro k
  induction k with
  | zero =>
    intro i d e d' e' h hse hsub
    simp only [copyMembers, Option.some.injEq, Prod.mk.injEq] at h
    obtain ⟨rfl, rfl⟩ := h
    refine ⟨Nat.le_refl _, Nat.le_refl _, fun h => absurd h (Nat.lt_irrefl _), fun h => absurd h (Nat.lt_irrefl _),
      fun _ _ _ => rfl, fun _ c _ m h1 h2 => by omega⟩
  | succ k ihk =>
    intro i d e d' e' h hse hsub
    simp only [copyMembers] at h
    cases ha : src[idx + i]? with
    | none => rw [ha] at h; simp at h
    | some a =>
      rw [ha] at h
      simp only at h
      by_cases hp : isPtr a = true
      · rw [if_pos hp, Option.bind_eq_some_iff] at h
        obtain ⟨⟨d2, e2⟩, h2, h3⟩ := h
        have hd : getDescriptor a = 0x84 := (isPtr_iff a).1 hp
        have C := ih _ _ _ _ _ h2 (hsub i a (Nat.le_refl _) (by omega) ha hd).1
          (hsub i a (Nat.le_refl _) (by omega) ha hd).2
        have hl1 : (put d (start + i) (ip e)).length = max d.length (start + i + 1) := length_put _ _ _
        have g1 := C.grows
        have g2 := C.len
        have g3 := C.room
        rw [hl1] at g2
        obtain ⟨q1, q2, q3, q4, q5, q6⟩ := ihk (i + 1) d2 e2 d' e' h3 (by omega)
          (fun m a' h1 h2' => hsub m a' (by omega) (by omega))
        refine ⟨by omega, by omega, fun _ => ?_, fun _ => ?_, ?_, ?_⟩
        · by_cases he : e2 < e'
          · exact q3 he
          · have : e2 = e' := by omega
            omega
        · by_cases hk : 0 < k
          · have := q4 hk; omega
          · omega
        · intro q hq hor
          rw [q5 q (by omega) (by omega), C.kept q (by omega) (by rw [hl1]; omega)]
          exact put_get _ _ _ _ (by omega) hq
        · intro h4 c hc m hm1 hm2
          by_cases hmi : m = i
          · subst hmi
            refine ⟨a, ha, fun _ => ⟨e, ?_, by omega, ?_⟩, fun h => absurd hd h⟩
            · rw [hc (start + m) (Or.inl ⟨by omega, by omega⟩), q5 _ (by omega) (by omega),
                C.kept _ (by omega) (by rw [hl1]; omega), put_get_self]
            · apply C.same (by omega)
              intro q hq1 hq2
              rw [hc q (Or.inr ⟨hq1, by omega⟩), q5 q (by omega) (by omega)]
          · exact q6 h4 c (fun q hq => hc q (by omega)) m (by omega) (by omega)
      · rw [if_neg hp] at h
        have hd : getDescriptor a ≠ 0x84 := fun h => hp ((isPtr_iff a).2 h)
        have hl1 : (put d (start + i) a).length = max d.length (start + i + 1) := length_put _ _ _
        obtain ⟨q1, q2, q3, q4, q5, q6⟩ := ihk (i + 1) _ e d' e' h (by omega)
          (fun m a' h1 h2' => hsub m a' (by omega) (by omega))
        rw [hl1] at q2
        refine ⟨q1, by omega, q3, fun _ => ?_, ?_, ?_⟩
        · by_cases hk : 0 < k
          · have := q4 hk; omega
          · omega
        · intro q hq hor
          rw [q5 q (by rw [hl1]; omega) (by omega)]
          exact put_get _ _ _ _ (by omega) hq
        · intro h4 c hc m hm1 hm2
          by_cases hmi : m = i
          · subst hmi
            refine ⟨a, ha, fun h => absurd h hd, fun _ => ?_⟩
            rw [hc (start + m) (Or.inl ⟨by omega, by omega⟩), q5 _ (by rw [hl1]; omega) (by omega),
              put_get_self]
          · exact q6 h4 c (fun q hq => hc q (by omega)) m (by omega) (by omega)

/-- A copy that ends is a copy. -/
theorem copyStructure_spec {src : Code} : ∀ f d e j d' e', copyStructure src f d e j = some (d', e') →
    Plain src j → Whole src j → Copied f src d e j d' e' := by
  intro f
  induction f with
  | zero => intro d e j d' e' h; simp [copyStructure] at h
  | succ f ih =>
    intro d e j d' e' h hpl hwh
    obtain ⟨hh, hraw, hsubp⟩ := hpl
    obtain ⟨hh', hnp, hall, hsubw⟩ := hwh
    rename_i w w'
    rw [hh] at hh'
    obtain rfl : w = w' := by simpa using hh'
    have hno : ∀ m a, 0 ≤ m → m < 0 + (count w + 1) → src[j + m]? = some a → getDescriptor a = 0x84 →
        Plain src (asIndex a).toNat ∧ Whole src (asIndex a).toNat := by
      intro m a _ hm ha hd
      by_cases h0 : m = 0
      · subst h0
        rw [Nat.add_zero, hh] at ha
        obtain rfl : w = a := by simpa using ha
        exact absurd hd hnp
      · have hr : raw w = false := by
          cases hr : raw w
          · rfl
          · exact absurd hd (hraw hr m a (by omega) (by omega) ha)
        exact ⟨hsubp hr m a (by omega) (by omega) ha hd, hsubw hr m a (by omega) (by omega) ha hd⟩
    simp only [copyStructure, hh] at h
    obtain ⟨q1, q2, q3, q4, q5, q6⟩ := copyMembers_spec ih _ _ _ _ _ _ h (by omega) hno
    have q4' := q4 (by omega)
    refine ⟨by omega, q2, ?_, fun q hq hl => q5 q hl (Or.inl (by omega)), fun h4 c hc => ?_⟩
    · by_cases he : e + (1 + count w) < e'
      · exact q3 he
      · omega
    · have hm := q6 h4 c (fun q hq => hc q (by omega) (by omega))
      have hce : c[e]? = some w := by
        obtain ⟨a, ha, _, hat⟩ := hm 0 (Nat.le_refl _) (by omega)
        rw [Nat.add_zero, hh] at ha
        obtain rfl : w = a := by simpa using ha
        exact hat hnp
      have hg : Plain c e ∧ Whole c e := good_of_members hce hnp hraw (i := j) (src := src) (by
        intro k hk1 hk2
        obtain ⟨a, ha, h1, h2⟩ := hm k (by omega) (by omega)
        exact ⟨a, ha, fun hd => by obtain ⟨x, hx, hl, _, hs, hs', _⟩ := h1 hd; exact ⟨x, hx, hl, hs, hs'⟩, h2⟩)
      refine ⟨look_of_members hh hce hraw ?_, hg.1, hg.2, ?_⟩
      · intro k hk1 hk2
        obtain ⟨a, ha, h1, h2⟩ := hm k (by omega) (by omega)
        exact ⟨a, ha, fun hd => by obtain ⟨x, hx, hl, hs, _⟩ := h1 hd; exact ⟨x, hx, hl, hs⟩, h2⟩
      · simp only [size, hh, hce]
        rw [sizeMembers_eq]
        intro m hm1 hm2
        obtain ⟨a, ha, h1, h2⟩ := hm m (by omega) (by omega)
        exact ⟨a, ha, fun hd => by obtain ⟨x, hx, hl, _, _, _, hs⟩ := h1 hd; exact ⟨x, hx, hl, hs⟩, h2⟩

/-- More depth does not change the result. -/
theorem copyStructure_mono {src : Code} : ∀ f d e j r, copyStructure src f d e j = some r →
    copyStructure src (f + 1) d e j = some r := by
  intro f
  induction f with
  | zero => intro d e j r h; simp [copyStructure] at h
  | succ f ih =>
    intro d e j r h
    have key : ∀ idx start k i d e r, copyMembers (copyStructure src f) src idx start k i d e = some r →
        copyMembers (copyStructure src (f + 1)) src idx start k i d e = some r := by
      intro idx start k
      induction k with
      | zero => intro i d e r h; simpa [copyMembers] using h
      | succ k ihk =>
        intro i d e r h
        simp only [copyMembers] at h ⊢
        cases ha : src[idx + i]? with
        | none => rw [ha] at h; simp at h
        | some a =>
          rw [ha] at h
          simp only at h ⊢
          by_cases hp : isPtr a = true
          · rw [if_pos hp, Option.bind_eq_some_iff] at h
            obtain ⟨r2, h2, h3⟩ := h
            rw [if_pos hp, ih _ _ _ _ h2]
            exact ihk _ _ _ _ h3
          · rw [if_neg hp] at h ⊢
            exact ihk _ _ _ _ h
    rw [copyStructure] at h ⊢
    cases hj : src[j]? with
    | none => rw [hj] at h; simp at h
    | some w =>
      rw [hj] at h
      exact key _ _ _ _ _ _ _ h

theorem copyStructure_mono' {src : Code} {f d e j r} (h : copyStructure src f d e j = some r) :
    ∀ g, f ≤ g → copyStructure src g d e j = some r := by
  intro g hg
  induction g with
  | zero =>
    obtain rfl : f = 0 := by omega
    exact h
  | succ g ih =>
    by_cases hf : f = g + 1
    · subst hf; exact h
    · exact copyStructure_mono g d e j r (ih (by omega))

theorem copyMembers_total {src : Code} {f idx start : Nat} : ∀ k i d e,
    (∀ m, i ≤ m → m < i + k → ∃ a, src[idx + m]? = some a ∧ (getDescriptor a = 0x84 →
      ∀ d e, (copyStructure src f d e (asIndex a).toNat).isSome)) →
    (copyMembers (copyStructure src f) src idx start k i d e).isSome := by
  intro k
  induction k with
  | zero => intro i d e _; simp [copyMembers]
  | succ k ih =>
    intro i d e h
    obtain ⟨a, ha, hd⟩ := h i (Nat.le_refl _) (by omega)
    have hr : ∀ m, i + 1 ≤ m → m < i + 1 + k → ∃ a, src[idx + m]? = some a ∧ (getDescriptor a = 0x84 →
      ∀ d e, (copyStructure src f d e (asIndex a).toNat).isSome) := fun m h1 h2 => h m (by omega) (by omega)
    simp only [copyMembers, ha]
    by_cases hp : isPtr a = true
    · rw [if_pos hp]
      obtain ⟨r, hr2⟩ := Option.isSome_iff_exists.1 (hd ((isPtr_iff a).1 hp) (put d (start + i) (ip e)) e)
      rw [show ix a = (asIndex a).toNat from rfl, hr2]
      exact ih _ _ _ hr
    · rw [if_neg hp]
      exact ih _ _ _ hr

/-- Finite structures without pointer-like data are copied. -/
theorem copyStructure_total {src : Code} {j : Nat} (hp : Plain src j) (hw : Whole src j) :
    ∃ f, ∀ g, f ≤ g → ∀ d e, (copyStructure src g d e j).isSome := by
  induction hw with
  | @mk i h hh hnp hall hsub ih =>
    obtain ⟨hh', hraw, hsubp⟩ := hp
    rename_i w
    rw [hh] at hh'
    obtain rfl : h = w := by simpa using hh'
    have hf : ∀ k, ∃ f, ∀ w, raw h = false → 1 ≤ k → k ≤ count h → src[i + k]? = some w →
        getDescriptor w = 0x84 → ∀ g, f ≤ g → ∀ d e, (copyStructure src g d e (asIndex w).toNat).isSome := by
      intro k
      by_cases hc : raw h = false ∧ 1 ≤ k ∧ k ≤ count h ∧ ∃ w, src[i + k]? = some w ∧ getDescriptor w = 0x84
      · obtain ⟨h1, h2, h3, w, h4, h5⟩ := hc
        obtain ⟨f, hf⟩ := ih h1 k w h2 h3 h4 h5 (hsubp h1 k w h2 h3 h4 h5)
        refine ⟨f, fun w' _ _ _ hw' _ => ?_⟩
        rw [h4] at hw'
        obtain rfl : w = w' := by simpa using hw'
        exact hf
      · exact ⟨0, fun w h1 h2 h3 h4 h5 => absurd ⟨h1, h2, h3, w, h4, h5⟩ hc⟩
    choose F hF using hf
    have hmax : ∃ M, ∀ k, k ≤ count h → F k ≤ M := by
      generalize count h = n
      induction n with
      | zero => exact ⟨F 0, fun k hk => by obtain rfl : k = 0 := by omega
                                           exact Nat.le_refl _⟩
      | succ n ihn =>
        obtain ⟨M, hM⟩ := ihn
        refine ⟨M + F (n + 1), fun k hk => ?_⟩
        by_cases hk' : k = n + 1
        · subst hk'; omega
        · have := hM k (by omega); omega
    obtain ⟨M, hM⟩ := hmax
    refine ⟨M + 1, fun g hg d e => ?_⟩
    obtain ⟨g, rfl⟩ : ∃ g', g = g' + 1 := ⟨g - 1, by omega⟩
    simp only [copyStructure, hh]
    refine copyMembers_total _ _ _ _ fun m _ hm => ?_
    have hlt : i + m < src.length := by omega
    refine ⟨src[i + m], List.getElem?_eq_getElem hlt, fun hd d e => ?_⟩
    by_cases h0 : m = 0
    · subst h0
      have : src[i + 0]? = some h := by simpa using hh
      rw [List.getElem?_eq_getElem hlt] at this
      obtain h1 := Option.some.inj this
      rw [h1] at hd
      exact absurd hd hnp
    · have hr : raw h = false := by
        cases hr : raw h
        · rfl
        · exact absurd hd (hraw hr m _ (by omega) (by omega) (List.getElem?_eq_getElem hlt))
      exact hF m _ hr (by omega) (by omega) (List.getElem?_eq_getElem hlt) hd g
        (by have := hM m (by omega); omega) d e

end Verif.Values
