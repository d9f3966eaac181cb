import Verif.Pack.Model
import Verif.Atom.Lemmas
import Mathlib.Data.List.Basic
/-! # Lemmas for packing and unpacking -/
namespace Verif.Pack
open Verif.Atom Verif.Words Verif.Match

/-! ## Words -/

theorem ip_toNat (n : Nat) : (ip n).toNat = 0x84 * 16777216 + n % 4096 := by
  unfold ip iPointer; rw [ptr_toNat, BitVec.toNat_ofNat]; simp only [Ty.num, Ty.code]; simp
theorem rp_toNat (n : Nat) : (rp n).toNat = 0x85 * 16777216 + n % 4096 := by
  unfold rp rPointer; rw [ptr_toNat, BitVec.toNat_ofNat]; simp only [Ty.num, Ty.code]; simp

theorem ix_ip {n : Nat} (h : n < 4096) : ix (ip n) = n := by
  unfold ix; rw [asIndex_toNat, ip_toNat]; omega
theorem ix_rp {n : Nat} (h : n < 4096) : ix (rp n) = n := by
  unfold ix; rw [asIndex_toNat, rp_toNat]; omega

theorem isI_iff (w : Word) : isIPtr w = true ↔ w.toNat / 16777216 = 0x84 := by
  unfold isIPtr; rw [beq_iff_eq, ← BitVec.toNat_inj, getDescriptor_toNat]; rfl
theorem isR_iff (w : Word) : isRPtr w = true ↔ w.toNat / 16777216 = 0x85 := by
  unfold isRPtr; rw [beq_iff_eq, ← BitVec.toNat_inj, getDescriptor_toNat]; rfl
theorem isA_iff (w : Word) : isAssign w = true ↔ w.toNat / 16777216 = 0x8D := by
  unfold isAssign; rw [beq_iff_eq, ← BitVec.toNat_inj, getDescriptor_toNat]; rfl

theorem isI_ip (n : Nat) : isIPtr (ip n) = true := by rw [isI_iff, ip_toNat]; omega
theorem isR_rp (n : Nat) : isRPtr (rp n) = true := by rw [isR_iff, rp_toNat]; omega
theorem isI_rp (n : Nat) : isIPtr (rp n) = false := by
  rw [← Bool.not_eq_true, isI_iff, rp_toNat]; omega
theorem isA_rp (n : Nat) : isAssign (rp n) = false := by
  rw [← Bool.not_eq_true, isA_iff, rp_toNat]; omega
theorem isR_ip (n : Nat) : isRPtr (ip n) = false := by
  rw [← Bool.not_eq_true, isR_iff, ip_toNat]; omega
theorem not_I_of_R {w : Word} (h : isRPtr w = true) : isIPtr w = false := by
  rw [isR_iff] at h; rw [← Bool.not_eq_true, isI_iff]; omega
theorem not_A_of_R {w : Word} (h : isRPtr w = true) : isAssign w = false := by
  rw [isR_iff] at h; rw [← Bool.not_eq_true, isA_iff]; omega
theorem not_A_of_I {w : Word} (h : isIPtr w = true) : isAssign w = false := by
  rw [isI_iff] at h; rw [← Bool.not_eq_true, isA_iff]; omega

theorem assign_toNat (v : BitVec 8) (n : Nat) :
    (assignmentPointer v (BitVec.ofNat 16 n)).toNat = 0x8D * 16777216 + v.toNat * 65536 + n % 4096 := by
  rw [assignment_toNat, BitVec.toNat_ofNat]; omega

/-- Shifting the trailing code down and up again. -/
theorem unshift_shift (len : Nat) (w : Word) (hl : ix w + len < 4096)
    (hi : isIPtr w = true → w = ip (ix w))
    (ha : isAssign w = true → w = assignmentPointer (asAssignmentIndex w) (BitVec.ofNat 16 (ix w))) :
    unshift len (shift len w) = w := by
  unfold shift
  by_cases h1 : isIPtr w = true
  · rw [if_pos h1]
    unfold unshift
    rw [if_pos (isI_ip _), ix_ip hl, Nat.add_sub_cancel]
    exact (hi h1).symm
  · rw [if_neg h1]
    by_cases h2 : isAssign w = true
    · rw [if_pos h2]
      have hn := assign_toNat (asAssignmentIndex w) (ix w + len)
      have hv := (asAssignmentIndex w).isLt
      have e1 : isIPtr (assignmentPointer (asAssignmentIndex w) (BitVec.ofNat 16 (ix w + len))) = false := by
        rw [← Bool.not_eq_true, isI_iff, hn]; omega
      have e2 : isAssign (assignmentPointer (asAssignmentIndex w) (BitVec.ofNat 16 (ix w + len))) = true := by
        rw [isA_iff, hn]; omega
      have e3 : ix (assignmentPointer (asAssignmentIndex w) (BitVec.ofNat 16 (ix w + len))) = ix w + len := by
        have : ∀ v : Word, ix v = v.toNat % 4096 := fun v => asIndex_toNat v
        rw [this, hn]; omega
      have e4 : asAssignmentIndex (assignmentPointer (asAssignmentIndex w) (BitVec.ofNat 16 (ix w + len))) =
          asAssignmentIndex w := by
        rw [← BitVec.toNat_inj, asAssignmentIndex_toNat, hn]; omega
      unfold unshift
      rw [e1, if_neg (by simp), if_pos e2, e3, e4, Nat.add_sub_cancel]
      exact (ha h2).symm
    · rw [if_neg h2]
      unfold unshift
      rw [if_neg h1, if_neg h2]

theorem shift_R (len : Nat) {w : Word} (h : isRPtr w = true) : shift len w = w := by
  unfold shift; rw [not_I_of_R h, not_A_of_R h]; rfl

/-! ## Packing an object -/

/-- How a word of an object is represented in the packed code. -/
def Rep (o : Obj) (off : Nat) (refs : List Nat) (w w' : Word) : Prop :=
  (isRPtr w = true → ∃ j r, w' = rp j ∧ refs[j]? = some r ∧ o.refs[ix w]? = some r) ∧
  (isIPtr w = true → w' = ip (off + ix w)) ∧
  (isRPtr w = false → isIPtr w = false → w' = w)

theorem prefix_get {a b : List Nat} (h : a <+: b) {j r : Nat} (hj : a[j]? = some r) : b[j]? = some r := by
  obtain ⟨c, rfl⟩ := h
  rw [List.getElem?_append_left (by
    by_contra hc
    rw [List.getElem?_eq_none (by omega)] at hj; cases hj)]
  exact hj

theorem Rep.mono {o : Obj} {off : Nat} {refs refs' : List Nat} {w w' : Word} (h : Rep o off refs w w')
    (hp : refs <+: refs') : Rep o off refs' w w' := by
  refine ⟨fun hr => ?_, h.2.1, h.2.2⟩
  obtain ⟨j, r, h1, h2, h3⟩ := h.1 hr
  exact ⟨j, r, h1, prefix_get hp h2, h3⟩

theorem idxOf_get {l : List Nat} {r i : Nat} (h : l.idxOf? r = some i) : l[i]? = some r := by
  rw [List.idxOf?_eq_some_iff] at h
  obtain ⟨h1, h2, _⟩ := h
  rw [List.getElem?_eq_getElem h1, h2]

theorem packObjWords_spec (o : Obj) (off : Nat) (ws : List Word) (refs : List Nat) (l : List Word)
    (refs' : List Nat) (h : packObjWords off o.refs ws refs = some (l, refs')) :
    l.length = ws.length ∧ refs <+: refs' ∧
      ∀ (i : Nat) (w : Word), ws[i]? = some w → ∃ w', l[i]? = some w' ∧ Rep o off refs' w w' := by
  induction ws generalizing refs l refs' with
  | nil =>
    simp only [packObjWords, Option.some.injEq, Prod.mk.injEq] at h
    obtain ⟨rfl, rfl⟩ := h
    exact ⟨rfl, List.prefix_refl _, fun i w hw => by simp at hw⟩
  | cons w ws ih =>
    simp only [packObjWords] at h
    -- one step, whatever word `x` was written for `w`
    have fin : ∀ (refs0 : List Nat) (x : Word) (t : List Word) (r2 : List Nat),
        refs <+: refs0 → packObjWords off o.refs ws refs0 = some (t, r2) → Rep o off refs0 w x →
        l = x :: t → refs' = r2 →
        l.length = (w :: ws).length ∧ refs <+: refs' ∧
          ∀ (i : Nat) (v : Word), (w :: ws)[i]? = some v → ∃ w', l[i]? = some w' ∧ Rep o off refs' v w' := by
      rintro refs0 x t r2 hp ht hx rfl rfl
      obtain ⟨i1, i2, i3⟩ := ih refs0 t refs' ht
      refine ⟨by simp [i1], hp.trans i2, ?_⟩
      intro i v hv
      cases i with
      | zero =>
        simp only [List.getElem?_cons_zero, Option.some.injEq] at hv
        subst hv
        exact ⟨x, by simp, hx.mono i2⟩
      | succ i =>
        simp only [List.getElem?_cons_succ] at hv ⊢
        exact i3 i v hv
    by_cases hr : isRPtr w = true
    · rw [if_pos hr] at h
      cases hor : o.refs[ix w]? with
      | none => rw [hor] at h; cases h
      | some r =>
        rw [hor] at h
        simp only at h
        cases hid : refs.idxOf? r with
        | some j =>
          rw [hid] at h
          simp only at h
          cases ht : packObjWords off o.refs ws refs with
          | none => rw [ht] at h; cases h
          | some q =>
            obtain ⟨t, r2⟩ := q
            rw [ht] at h
            simp only [Option.some.injEq, Prod.mk.injEq] at h
            refine fin refs (rp j) t r2 (List.prefix_refl _) ht ⟨fun _ => ⟨j, r, rfl, idxOf_get hid, hor⟩, ?_, ?_⟩
              h.1.symm h.2.symm
            · intro q; rw [not_I_of_R hr] at q; cases q
            · intro q; rw [hr] at q; cases q
        | none =>
          rw [hid] at h
          simp only at h
          cases ht : packObjWords off o.refs ws (refs ++ [r]) with
          | none => rw [ht] at h; cases h
          | some q =>
            obtain ⟨t, r2⟩ := q
            rw [ht] at h
            simp only [Option.some.injEq, Prod.mk.injEq] at h
            refine fin (refs ++ [r]) (rp refs.length) t r2 (List.prefix_append _ _) ht
              ⟨fun _ => ⟨refs.length, r, rfl, by simp, hor⟩, ?_, ?_⟩ h.1.symm h.2.symm
            · intro q; rw [not_I_of_R hr] at q; cases q
            · intro q; rw [hr] at q; cases q
    · rw [if_neg hr] at h
      have hr' : isRPtr w = false := by simpa using hr
      by_cases hi : isIPtr w = true
      · rw [if_pos hi] at h
        cases ht : packObjWords off o.refs ws refs with
        | none => rw [ht] at h; cases h
        | some q =>
          obtain ⟨t, r2⟩ := q
          rw [ht] at h
          simp only [Option.some.injEq, Prod.mk.injEq] at h
          refine fin refs (ip (off + ix w)) t r2 (List.prefix_refl _) ht ⟨?_, fun _ => rfl, ?_⟩ h.1.symm h.2.symm
          · intro q; rw [hr'] at q; cases q
          · intro _ q; rw [hi] at q; cases q
      · rw [if_neg hi] at h
        have hi' : isIPtr w = false := by simpa using hi
        cases ht : packObjWords off o.refs ws refs with
        | none => rw [ht] at h; cases h
        | some q =>
          obtain ⟨t, r2⟩ := q
          rw [ht] at h
          simp only [Option.some.injEq, Prod.mk.injEq] at h
          refine fin refs w t r2 (List.prefix_refl _) ht ⟨?_, ?_, fun _ _ => rfl⟩ h.1.symm h.2.symm
          · intro q; rw [hr'] at q; cases q
          · intro q; rw [hi'] at q; cases q

/-! ## Packing a fact -/

theorem packFactWords_spec (h : Heap) (frefs : List Nat) (ws : List Word) (ext : Nat) (refs : List Nat)
    (hs bs : List Word) (refs' : List Nat)
    (hp : packFactWords h frefs ext ws refs = some (hs, bs, refs')) :
    hs.length = ws.length ∧ refs <+: refs' ∧
      ∀ (i : Nat) (w : Word), ws[i]? = some w →
        (isRPtr w = true → ∃ o d, (frefs[ix w]?).bind h = some o ∧ hs[i]? = some (ip (ext + d)) ∧
          d + o.code.length ≤ bs.length ∧
          ∀ (x : Nat) (v : Word), o.code[x]? = some v → ∃ v', bs[d + x]? = some v' ∧ Rep o (ext + d) refs' v v') ∧
        (isRPtr w = false → hs[i]? = some w) := by
  induction ws generalizing ext refs hs bs refs' with
  | nil =>
    simp only [packFactWords, Option.some.injEq, Prod.mk.injEq] at hp
    obtain ⟨rfl, rfl, rfl⟩ := hp
    exact ⟨rfl, List.prefix_refl _, fun i w hw => by simp at hw⟩
  | cons w ws ih =>
    simp only [packFactWords] at hp
    by_cases hr : isRPtr w = true
    · rw [if_pos hr] at hp
      cases ho : (frefs[ix w]?).bind h with
      | none => rw [ho] at hp; cases hp
      | some o =>
        rw [ho] at hp
        simp only at hp
        cases hpo : packObjWords ext o.refs o.code refs with
        | none => rw [hpo] at hp; cases hp
        | some q =>
          obtain ⟨ow, refs1⟩ := q
          rw [hpo] at hp
          simp only at hp
          cases hpf : packFactWords h frefs (ext + o.code.length) ws refs1 with
          | none => rw [hpf] at hp; cases hp
          | some q =>
            obtain ⟨hs2, bs2, refs2⟩ := q
            rw [hpf] at hp
            simp only [Option.some.injEq, Prod.mk.injEq] at hp
            obtain ⟨rfl, rfl, rfl⟩ := hp
            obtain ⟨o1, o2, o3⟩ := packObjWords_spec o ext o.code refs ow refs1 hpo
            obtain ⟨i1, i2, i3⟩ := ih _ _ _ _ _ hpf
            refine ⟨by simp [i1], o2.trans i2, ?_⟩
            intro i v hv
            cases i with
            | zero =>
              simp only [List.getElem?_cons_zero, Option.some.injEq] at hv
              subst hv
              refine ⟨fun _ => ⟨o, 0, ho, by simp, by simp [o1], ?_⟩, fun q => ?_⟩
              · intro x v hx
                obtain ⟨v', h1, h2⟩ := o3 x v hx
                refine ⟨v', ?_, h2.mono i2⟩
                have : x < ow.length := by
                  by_contra hc
                  rw [List.getElem?_eq_none (by omega)] at h1; cases h1
                rw [Nat.zero_add, List.getElem?_append_left this]; exact h1
              · rw [hr] at q; cases q
            | succ i =>
              simp only [List.getElem?_cons_succ] at hv ⊢
              obtain ⟨j1, j2⟩ := i3 i v hv
              refine ⟨fun q => ?_, j2⟩
              obtain ⟨o', d, e1, e2, e3, e4⟩ := j1 q
              refine ⟨o', o.code.length + d, e1, ?_, by simp [o1]; omega, ?_⟩
              · rw [e2]; congr 2; omega
              · intro x y hx
                obtain ⟨v', h1, h2⟩ := e4 x y hx
                refine ⟨v', ?_, ?_⟩
                · rw [List.getElem?_append_right (by omega), o1, ← h1]; congr 1; omega
                · rw [show ext + (o.code.length + d) = ext + o.code.length + d by omega]; exact h2
    · rw [if_neg hr] at hp
      have hr' : isRPtr w = false := by simpa using hr
      cases hpf : packFactWords h frefs ext ws refs with
      | none => rw [hpf] at hp; cases hp
      | some q =>
        obtain ⟨hs2, bs2, refs2⟩ := q
        rw [hpf] at hp
        simp only [Option.some.injEq, Prod.mk.injEq] at hp
        obtain ⟨rfl, rfl, rfl⟩ := hp
        obtain ⟨i1, i2, i3⟩ := ih _ _ _ _ _ hpf
        refine ⟨by simp [i1], i2, ?_⟩
        intro i v hv
        cases i with
        | zero =>
          simp only [List.getElem?_cons_zero, Option.some.injEq] at hv
          subst hv
          exact ⟨fun q => (by rw [hr'] at q; cases q), fun _ => (by simp)⟩
        | succ i =>
          simp only [List.getElem?_cons_succ] at hv ⊢
          exact i3 i v hv

/-! ## Packing the patterns -/

/-- The list `l` is found in `P` from `s` on. -/
def At (P : List Word) (s : Nat) (l : List Word) : Prop := ∀ (i : Nat) (w : Word), l[i]? = some w → P[s + i]? = some w

theorem At.left {P : List Word} {s : Nat} {a b : List Word} (h : At P s (a ++ b)) : At P s a := by
  intro i w hw
  refine h i w ?_
  rw [List.getElem?_append_left (by
    by_contra hc
    rw [List.getElem?_eq_none (by omega)] at hw; cases hw)]
  exact hw

theorem At.right {P : List Word} {s : Nat} {a b : List Word} (h : At P s (a ++ b)) : At P (s + a.length) b := by
  intro i w hw
  rw [show s + a.length + i = s + (a.length + i) by omega]
  refine h (a.length + i) w ?_
  rw [List.getElem?_append_right (by omega), Nat.add_sub_cancel_left]
  exact hw

/-- A fact is represented in packed code at `s`. -/
def FactAt (h : Heap) (P : List Word) (refs : List Nat) (s : Nat) (f : Obj) : Prop :=
  ∀ (i : Nat) (w : Word), f.code[i]? = some w →
    (isRPtr w = true → ∃ o e, (f.refs[ix w]?).bind h = some o ∧ P[s + i]? = some (ip e) ∧
      e + o.code.length ≤ P.length ∧
      ∀ (x : Nat) (v : Word), o.code[x]? = some v → ∃ v', P[e + x]? = some v' ∧ Rep o e refs v v') ∧
    (isRPtr w = false → P[s + i]? = some w)

theorem packPatterns_spec (h : Heap) (fs : List Nat) (start : Nat) (refs : List Nat) (starts : List Nat)
    (zone : List Word) (refs' : List Nat) (hp : packPatterns h start fs refs = some (starts, zone, refs'))
    (P : List Word) (hP : At P start zone) (hlen : start + zone.length ≤ P.length) :
    starts.length = fs.length ∧ refs <+: refs' ∧
      ∀ (i : Nat) (f : Nat), fs[i]? = some f → ∃ fo s, h f = some fo ∧ starts[i]? = some s ∧
        s + fo.code.length ≤ start + zone.length ∧ FactAt h P refs' s fo := by
  induction fs generalizing start refs starts zone refs' with
  | nil =>
    simp only [packPatterns, Option.some.injEq, Prod.mk.injEq] at hp
    obtain ⟨rfl, rfl, rfl⟩ := hp
    exact ⟨rfl, List.prefix_refl _, fun i w hw => by simp at hw⟩
  | cons f fs ih =>
    simp only [packPatterns] at hp
    cases hf : h f with
    | none => rw [hf] at hp; cases hp
    | some fo =>
      rw [hf] at hp
      simp only at hp
      cases hpf : packFactWords h fo.refs (start + fo.code.length) fo.code refs with
      | none => rw [hpf] at hp; cases hp
      | some q =>
        obtain ⟨hs, bs, refs1⟩ := q
        rw [hpf] at hp
        simp only at hp
        cases hpp : packPatterns h (start + (hs ++ bs).length) fs refs1 with
        | none => rw [hpp] at hp; cases hp
        | some q =>
          obtain ⟨st2, z2, refs2⟩ := q
          rw [hpp] at hp
          simp only [Option.some.injEq, Prod.mk.injEq] at hp
          obtain ⟨rfl, rfl, rfl⟩ := hp
          obtain ⟨f1, f2, f3⟩ := packFactWords_spec h fo.refs fo.code _ refs hs bs refs1 hpf
          simp only [List.length_append] at hlen
          obtain ⟨i1, i2, i3⟩ := ih _ _ _ _ _ hpp hP.right (by simp only [List.length_append]; omega)
          refine ⟨by simp [i1], f2.trans i2, ?_⟩
          intro i g hg
          cases i with
          | zero =>
            simp only [List.getElem?_cons_zero, Option.some.injEq] at hg
            subst hg
            refine ⟨fo, start, hf, by simp, by simp [f1], ?_⟩
            have hH : At P start hs := hP.left.left
            have hB : At P (start + hs.length) bs := hP.left.right
            intro i w hw
            obtain ⟨j1, j2⟩ := f3 i w hw
            refine ⟨fun q => ?_, fun q => hH i w (j2 q)⟩
            obtain ⟨o, d, e1, e2, e3, e4⟩ := j1 q
            refine ⟨o, start + fo.code.length + d, e1, hH i _ e2, by omega, ?_⟩
            intro x v hv
            obtain ⟨v', k1, k2⟩ := e4 x v hv
            refine ⟨v', ?_, k2.mono i2⟩
            have := hB (d + x) v' k1
            rw [f1] at this
            rw [← this]; congr 1; omega
          | succ i =>
            simp only [List.getElem?_cons_succ] at hg ⊢
            obtain ⟨fo', s, e1, e2, e3, e4⟩ := i3 i g hg
            exact ⟨fo', s, e1, e2, by simp at e3 ⊢; omega, e4⟩

/-! ## Unpacking an object -/

/-- What an object to be packed must look like: pointers inside it are well formed, lead forward to
whole structures inside it; references exist. -/
structure ObjShape (o : Obj) : Prop where
  head : ∃ hd, o.code[0]? = some hd ∧ isRPtr hd = false ∧ isIPtr hd = false ∧ count hd < o.code.length
  refs : ∀ (q : Nat) (w : Word), o.code[q]? = some w → isRPtr w = true → ∃ r, o.refs[ix w]? = some r
  ptrs : ∀ (q : Nat) (w : Word), o.code[q]? = some w → isIPtr w = true → w = ip (ix w) ∧ q < ix w ∧
    ∃ hd, o.code[ix w]? = some hd ∧ isRPtr hd = false ∧ isIPtr hd = false ∧ ix w + count hd < o.code.length

/-- `x` is `q` or in a structure that `q` leads to. -/
inductive From (o : Obj) : Nat → Nat → Prop
  | self (q : Nat) : From o q q
  | step {q x k : Nat} {w hd : Word} : o.code[q]? = some w → isIPtr w = true → o.code[ix w]? = some hd →
      k ≤ count hd → From o (ix w + k) x → From o q x

/-- A word of the new object against the word of the old one. -/
def SameWord (o : Obj) (refs : List Nat) (w w' : Word) : Prop :=
  (isRPtr w = true → ∃ j r, w' = rp j ∧ refs[j]? = some r ∧ o.refs[ix w]? = some r) ∧
  (isRPtr w = false → w' = w)

def Good (o : Obj) (s : New) : Prop :=
  ∀ x w', s.code x = some w' → ∃ w, o.code[x]? = some w ∧ SameWord o s.refs w w'

theorem SameWord.mono {o : Obj} {a b : List Nat} {w w' : Word} (h : SameWord o a w w') (hp : a <+: b) :
    SameWord o b w w' := by
  refine ⟨fun q => ?_, h.2⟩
  obtain ⟨j, r, h1, h2, h3⟩ := h.1 q
  exact ⟨j, r, h1, prefix_get hp h2, h3⟩

theorem Good.write {o : Obj} {s : New} (h : Good o s) {x : Nat} {w w' : Word} (hw : o.code[x]? = some w)
    (hs : SameWord o s.refs w w') : Good o (s.write x w') := by
  intro y v hv
  simp only [New.write] at hv
  split at hv
  · rename_i e; subst e
    simp only [Option.some.injEq] at hv
    subst hv
    exact ⟨w, hw, hs⟩
  · exact h y v hv

theorem unpackWords_spec (o p : Obj) (off : Nat) (hsh : ObjShape o)
    (hemb : ∀ (x : Nat) (v : Word), o.code[x]? = some v → ∃ v', p.code[off + x]? = some v' ∧ Rep o off p.refs v v')
    (hsize : off + o.code.length ≤ 4096) (hrefs : p.refs.length ≤ 4096) :
    ∀ (k n q : Nat) (s : New), q + n ≤ o.code.length → o.code.length - q < k → Good o s →
      ∃ s', unpackWords p off k n (off + q) s = some s' ∧ Good o s' ∧
        (∀ x, (s.code x).isSome = true → (s'.code x).isSome = true) ∧
        (∀ i, i < n → ∀ x, From o (q + i) x → (s'.code x).isSome = true) := by
  intro k
  induction k with
  | zero => intro n q s _ hk; omega
  | succ k ih =>
    intro n q s hn hk hg
    cases n with
    | zero => exact ⟨s, rfl, hg, fun _ h => h, fun i hi => by omega⟩
    | succ n =>
      have hq : q < o.code.length := by omega
      have hw : o.code[q]? = some o.code[q] := List.getElem?_eq_getElem hq
      generalize hww : o.code[q] = w at hw
      obtain ⟨w', hw', hrep⟩ := hemb q w hw
      simp only [unpackWords]
      rw [hw']
      simp only
      -- the rest of the words, after `s1`
      have rest : ∀ (s1 : New), Good o s1 → (∀ x, (s.code x).isSome = true → (s1.code x).isSome = true) →
          (∀ x, From o q x → (s1.code x).isSome = true) →
          ∃ s', unpackWords p off k n (off + q + 1) s1 = some s' ∧ Good o s' ∧
            (∀ x, (s.code x).isSome = true → (s'.code x).isSome = true) ∧
            (∀ i, i < n + 1 → ∀ x, From o (q + i) x → (s'.code x).isSome = true) := by
        intro s1 g1 m1 c1
        obtain ⟨s', e1, e2, e3, e4⟩ := ih n (q + 1) s1 (by omega) (by omega) g1
        refine ⟨s', by rw [show off + q + 1 = off + (q + 1) by omega]; exact e1, e2,
          fun x hx => e3 x (m1 x hx), ?_⟩
        intro i hi x hf
        cases i with
        | zero => exact e3 x (c1 x hf)
        | succ i => exact e4 i (by omega) x (by rw [show q + 1 + i = q + (i + 1) by omega]; exact hf)
      by_cases hr : isRPtr w = true
      · obtain ⟨j, r, rfl, hj, hor⟩ := hrep.1 hr
        have hjl : j < 4096 := by
          have : j < p.refs.length := by
            by_contra hc
            rw [List.getElem?_eq_none (by omega)] at hj; cases hj
          omega
        rw [if_pos (isR_rp j), ix_rp hjl, hj]
        simp only
        refine rest _ ?_ ?_ ?_
        · have hsw : SameWord o (s.refs ++ [r]) w (rp s.refs.length) :=
            ⟨fun _ => ⟨s.refs.length, r, rfl, by simp, hor⟩, fun q => by rw [hr] at q; cases q⟩
          have g0 : Good o (s.addRef r) := by
            intro y v hv
            obtain ⟨w0, h1, h2⟩ := hg y v hv
            exact ⟨w0, h1, h2.mono (List.prefix_append _ _)⟩
          have := g0.write (x := off + q - off) (w := w) (w' := rp s.refs.length)
            (by rw [Nat.add_sub_cancel_left]; exact hw) hsw
          exact this
        · intro x hx
          simp only [New.addRef, New.write]
          split
          · rfl
          · exact hx
        · intro x hf
          cases hf with
          | self => simp [New.addRef, New.write]
          | step a1 a2 _ _ _ =>
            rw [hw] at a1; cases a1
            rw [not_I_of_R hr] at a2; cases a2
      · have hr' : isRPtr w = false := by simpa using hr
        by_cases hi : isIPtr w = true
        · obtain rfl := hrep.2.1 hi
          obtain ⟨hip, hlt, hd, hhd, hd1, hd2, hd3⟩ := hsh.ptrs q w hw hi
          have hix : ix (ip (off + ix w)) = off + ix w := ix_ip (by omega)
          obtain ⟨hd', hhd', hdrep⟩ := hemb (ix w) hd hhd
          obtain rfl := hdrep.2.2 hd1 hd2
          rw [if_neg (by rw [isR_ip]; simp), if_pos (isI_ip _), hix, hhd']
          simp only
          have g1 : Good o (s.write (off + q - off) (ip (off + ix w - off))) := by
            refine hg.write (w := w) (by rw [Nat.add_sub_cancel_left]; exact hw) ⟨?_, ?_⟩
            · intro q; rw [hr'] at q; cases q
            · intro _; rw [Nat.add_sub_cancel_left]; exact hip.symm
          obtain ⟨s1, e1, e2, e3, e4⟩ := ih (count hd' + 1) (ix w) _ (by omega) (by omega) g1
          rw [e1]
          simp only
          have m1 : ∀ x, (s.code x).isSome = true → (s1.code x).isSome = true := by
            intro x hx
            refine e3 x ?_
            simp only [New.write]
            split
            · rfl
            · exact hx
          refine rest s1 e2 m1 ?_
          intro x hf
          cases hf with
          | self => exact e3 _ (by simp [New.write])
          | step a1 a2 a3 a4 a5 =>
            rw [hw] at a1; cases a1
            rw [hhd] at a3; cases a3
            exact e4 _ (by omega) x a5
        · have hi' : isIPtr w = false := by simpa using hi
          obtain rfl := hrep.2.2 hr' hi'
          rw [if_neg hr, if_neg hi]
          refine rest _ ?_ ?_ ?_
          · refine hg.write (w := w') (by rw [Nat.add_sub_cancel_left]; exact hw) ⟨?_, fun _ => rfl⟩
            intro q; rw [hr'] at q; cases q
          · intro x hx
            simp only [New.write]
            split
            · rfl
            · exact hx
          · intro x hf
            cases hf with
            | self => simp [New.write]
            | step a1 a2 _ _ _ =>
              rw [hw] at a1; cases a1
              rw [hi'] at a2; cases a2

end Verif.Pack
