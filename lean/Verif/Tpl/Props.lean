import Verif.Tpl.Spec
import Verif.Ctx.Copy
/-!
# C160: template arguments
-/
namespace Verif.Tpl
open Verif.Atom hiding Val
open Verif.Ctx

/-! ## Words -/

theorem kindOf_iptr {d k a n j : Nat} (h : kindOf d k a n = .iptr j) : d = 0x84 ∧ k = j := by
  unfold kindOf at h
  repeat' (replace h := ite_split h; rcases h with ⟨_, h⟩ | ⟨_, h⟩)
  all_goals first
    | (exfalso; exact Kind.noConfusion h)
    | (cases h; exact ⟨by assumption, rfl⟩)

theorem kind_iptr {w : Word} {k : Nat} (h : kind w = .iptr k) : getDescriptor w = 0x84 ∧ (asIndex w).toNat = k := by
  obtain ⟨h1, h2⟩ := kindOf_iptr h
  exact ⟨BitVec.eq_of_toNat_eq h1, h2⟩

theorem kind_struct {w : Word} {n : Nat} (h : kind w = .struct n) : (getAtomCount w).toNat = n := kind_struct_count (.inl h)

theorem desc_div (w : Word) (d : Nat) (hd : d < 256) : w.toNat / 2 ^ 24 = d ↔ getDescriptor w = BitVec.ofNat 8 d := by
  rw [← BitVec.toNat_inj, getDescriptor_toNat, BitVec.toNat_ofNat, Nat.mod_eq_of_lt (by omega)]

theorem kind_ipgm {k : Nat} (h : k < 4096) : kind (ipgmPointer (BitVec.ofNat 16 k)) = .ipgm k ∧ getDescriptor (ipgmPointer (BitVec.ofNat 16 k)) = 0x87 := by
  have hw := ptr_toNat .IPGM_PTR (BitVec.ofNat 16 k)
  have hn : Ty.num .IPGM_PTR = 0x87 := by decide
  have he : (BitVec.ofNat 16 k).toNat = k := by rw [BitVec.toNat_ofNat]; omega
  rw [hn, he] at hw
  have h1 : (getDescriptor (ipgmPointer (BitVec.ofNat 16 k))).toNat = 0x87 := by rw [getDescriptor_toNat, ipgmPointer]; omega
  have h2 : (asIndex (ipgmPointer (BitVec.ofNat 16 k))).toNat = k := by rw [asIndex_toNat, ipgmPointer]; omega
  refine ⟨?_, BitVec.eq_of_toNat_eq (by rw [h1]; rfl)⟩
  unfold kind
  rw [h1, h2]
  rfl

theorem at_word {m : Mem} {c : Ctx} {k : Kind} (h : m.at c = some k) : ∃ w, m.word c = some w ∧ kind w = k := by
  simpa [Mem.at, Option.map_eq_some_iff] using h

/-! ## What is patched -/

/-- Only wildcards have been replaced. -/
def Only (c c' : Code) : Prop := ∀ x, c' x = c x ∨ ∃ w, c x = some w ∧ getDescriptor w = 0x82

theorem Only.rfl {c : Code} : Only c c := fun _ => .inl (Eq.refl _)
theorem Only.trans {a b c : Code} (h : Only a b) (k : Only b c) : Only a c := fun x => by
  rcases h x with h | h
  · rcases k x with k | ⟨w, k, d⟩
    · exact .inl (k.trans h)
    · exact .inr ⟨w, by rw [← h]; exact k, d⟩
  · exact .inr h

theorem only_put {c : Code} {i : Nat} {w x : Word} (h : c i = some w) (d : getDescriptor w = 0x82) : Only c (put c i x) := fun y => by
  by_cases e : y = i
  · exact .inr ⟨w, by rw [e]; exact h, d⟩
  · exact .inl (by simp [put, e])

theorem members_only {rec : Code → Nat → Nat → Option Code} (hr : ∀ c p q c', rec c p q = some c' → Only c c') {inst : Code} {p q : Nat} :
    ∀ (n j : Nat) {c c' : Code}, members rec inst p q j n c = some c' → Only c c'
  | 0, j, c, c', h => by simp only [members] at h; cases h; exact Only.rfl
  | n + 1, j, c, c', h => by
    simp only [members] at h
    cases hw : c (p + j) with
    | none => rw [hw] at h; cases h
    | some w =>
      rw [hw] at h
      simp only at h
      split_ifs at h with h1 h2 h3
      · exact (only_put hw h1).trans (members_only hr n (j + 1) h)
      · cases h; exact Only.rfl
      · cases hx : inst (q + j) with
        | none => rw [hx] at h; cases h
        | some x =>
          rw [hx] at h
          simp only at h
          cases hc : rec c (asIndex w).toNat (asIndex x).toNat with
          | none => rw [hc] at h; cases h
          | some d => rw [hc] at h; exact (hr _ _ _ _ hc).trans (members_only hr n (j + 1) h)
      · exact members_only hr n (j + 1) h

theorem patch_only {inst : Code} : ∀ (n : Nat) (c : Code) (p q : Nat) (c' : Code), patchCode inst n c p q = some c' → Only c c'
  | 0, c, p, q, c', h => by cases h
  | n + 1, c, p, q, c', h => by
    simp only [patchCode] at h
    cases hw : c p with
    | none => rw [hw] at h; cases h
    | some w => rw [hw] at h; exact members_only (patch_only n) _ _ h

theorem keep {c c' : Code} (h : Only c c') {x : Nat} {w : Word} (hx : c x = some w) (hd : getDescriptor w ≠ 0x82) : c' x = some w := by
  rcases h x with h | ⟨u, h, d⟩
  · rw [h]; exact hx
  · rw [hx] at h; cases h; exact absurd d hd

/-- What the loop over the arguments does. -/
theorem args_spec {inst : Code} {N s t : Nat} {pat : Nat → Nat} : ∀ (n i : Nat) {c c' : Code},
    (∀ j, i ≤ j → j < i + n → ∃ w, c (s + j) = some w ∧ getDescriptor w = 0x84 ∧ (asIndex w).toNat = pat j) →
    (∀ j k, i ≤ j → j < i + n → i ≤ k → k < i + n → s + j ≠ pat k + 1) →
    (∀ j k, i ≤ j → j < i + n → i ≤ k → k < i + n → pat j = pat k → j = k) → t + i + n ≤ 4096 →
    args inst N s t i n c = some c' →
    (∀ j, i ≤ j → j < i + n → c' (pat j + 1) = some (ipgmPointer (BitVec.ofNat 16 (t + j)))) ∧
    ∀ x w, c x = some w → getDescriptor w ≠ 0x82 → (∀ j, i ≤ j → j < i + n → x ≠ pat j + 1) → c' x = some w
  | 0, i, c, c', _, _, _, _, h => by
    simp only [args] at h
    cases h
    exact ⟨fun j h1 h2 => by omega, fun x w h _ _ => h⟩
  | n + 1, i, c, c', hw, ha, hp, ht, h => by
    obtain ⟨w, w1, w2, w3⟩ := hw i (by omega) (by omega)
    simp only [args, w1] at h
    cases hx : inst (t + i) with
    | none => rw [hx] at h; cases h
    | some a =>
      rw [hx] at h
      simp only [w3] at h
      cases hc : patchCode inst N c (pat i) (asIndex a).toNat with
      | none => rw [hc] at h; cases h
      | some d =>
        rw [hc] at h
        simp only at h
        have ho := patch_only _ _ _ _ _ hc
        obtain ⟨r1, r2⟩ := args_spec n (i + 1) (c := put d (pat i + 1) (ipgmPointer (BitVec.ofNat 16 (t + i)))) (c' := c')
          (fun j h1 h2 => by
            obtain ⟨u, u1, u2, u3⟩ := hw j (by omega) (by omega)
            refine ⟨u, ?_, u2, u3⟩
            have := ha j i (by omega) (by omega) (by omega) (by omega)
            simp only [put, if_neg this]
            exact keep ho u1 (by rw [u2]; decide))
          (fun j k h1 h2 h3 h4 => ha j k (by omega) (by omega) (by omega) (by omega))
          (fun j k h1 h2 h3 h4 => hp j k (by omega) (by omega) (by omega) (by omega)) (by omega) h
        have h87 := (kind_ipgm (k := t + i) (by omega)).2
        refine ⟨fun j h1 h2 => ?_, fun x w hx hd hn => ?_⟩
        · by_cases e : j = i
          · subst e
            refine r2 _ _ (by simp [put]) (by rw [h87]; decide) fun k h3 h4 h5 => ?_
            have := hp j k (by omega) (by omega) (by omega) (by omega) (by omega)
            omega
          · exact r1 j (by omega) (by omega)
        · refine r2 x w ?_ hd fun k h3 h4 => hn k (by omega) (by omega)
          simp only [put, if_neg (hn i (by omega) (by omega))]
          exact keep ho hx hd

/-- What `run` does: the set and the patterns are found. -/
theorem run_eq {m : Mem} {L : Layout} (h : Laid m L) (N : Nat) :
    run m N = (args (m.objs m.ipgm).code N L.s L.t 1 L.n m.stem).map fun c => { m with stem := c } := by
  obtain ⟨a, a1, a2⟩ := at_word h.set
  obtain ⟨b, b1, b2⟩ := at_word h.args
  obtain ⟨d, d1, d2⟩ := at_word h.count
  have a1' : m.stem 1 = some a := a1
  have b1' : (m.objs m.ipgm).code 2 = some b := b1
  have d1' : m.stem L.s = some d := d1
  simp only [run, patch, a1', b1', (kind_iptr a2).2, (kind_iptr b2).2, d1', kind_struct d2]

theorem laid_words {m : Mem} {L : Layout} (h : Laid m L) : ∀ j, 1 ≤ j → j < 1 + L.n → ∃ w, m.stem (L.s + j) = some w ∧ getDescriptor w = 0x84 ∧ (asIndex w).toNat = L.pat j := fun j h1 h2 => by
  obtain ⟨w, w1, w2⟩ := at_word (h.pats j h1 (by omega)).1
  exact ⟨w, w1, kind_iptr w2⟩

theorem run_spec {m m' : Mem} {L : Layout} (h : Laid m L) {N : Nat} (hr : run m N = some m') :
    ∃ c, m' = { m with stem := c } ∧ ∀ i, 1 ≤ i → i ≤ L.n → c (L.pat i + 1) = some (ipgmPointer (BitVec.ofNat 16 (L.t + i))) := by
  rw [run_eq h] at hr
  obtain ⟨c, hc, rfl⟩ := Option.map_eq_some_iff.mp hr
  have hs := h.small
  obtain ⟨r, _⟩ := args_spec (pat := L.pat) L.n 1 (laid_words h) (fun j k h1 h2 h3 h4 e => by
      have := h.after k h3 (by omega); omega) (fun j k h1 h2 h3 h4 e => h.apart j k h1 (by omega) h3 (by omega) e) (by omega) hc
  exact ⟨c, rfl, fun i h1 h2 => r i h1 (by omega)⟩

/-! ## The values of the arguments do not depend on the code of the program -/

theorem word_stem {m : Mem} (s : Code) {c : Ctx} (h : c.sp.isObj = true) : ({ m with stem := s } : Mem).word c = m.word c := by
  obtain ⟨sp, i⟩ := c
  cases sp <;> first | rfl | cases h

theorem at_stem {m : Mem} (s : Code) {c : Ctx} (h : c.sp.isObj = true) : ({ m with stem := s } : Mem).at c = m.at c := by
  simp only [Mem.at, word_stem s h]

theorem final_stem {m : Mem} (s : Code) {c : Ctx} (h : c.sp.isObj = true) (hf : Final m c) : Final { m with stem := s } c := by
  obtain ⟨k, h1, h2⟩ := hf
  exact ⟨k, by rw [at_stem s h]; exact h1, h2⟩

theorem words_stem {m : Mem} (s : Code) {c : Ctx} (h : c.sp.isObj = true) : ∀ (n i : Nat), wordsAt { m with stem := s } c i n = wordsAt m c i n
  | 0, i => rfl
  | n + 1, i => by
    have : (c.child i).sp.isObj = true := h
    simp only [wordsAt, word_stem s this, words_stem s h n (i + 1)]

theorem object_stem {m : Mem} (s : Code) (c : Ctx) : ({ m with stem := s } : Mem).object c = m.object c := by
  obtain ⟨sp, i⟩ := c
  cases sp <;> rfl

theorem go_stem {m : Mem} (s : Code) {c ks d} (h : Go m c ks d) : c.sp.isObj = true → Go { m with stem := s } c ks d := by
  induction h with
  | here h => exact fun k => .here (final_stem s k h)
  | iptr h _ ih => exact fun k => .iptr (by rw [at_stem s k]; exact h) (ih k)
  | rptr h h2 h3 => exact fun k => .rptr (by rw [at_stem s k]; exact h) (by rw [object_stem]; exact h2) (final_stem s rfl h3)
  | ipgm h _ ih => exact fun k => .ipgm (by rw [at_stem s k]; exact h) (ih rfl)
  | inobj h h2 _ ih => exact fun k => .inobj (by rw [at_stem s k]; exact h) h2 (ih rfl)
  | dinobj h g _ ih1 ih2 => exact fun k => .dinobj (by rw [at_stem s k]; exact h) (ih1 k) (by rw [object_stem]; exact ih2 rfl)
  | value h h2 h3 => intro k; rcases h2 with h2 | h2 <;> rw [h2] at k <;> cases k
  | prod h h2 h3 => exact fun k => .prod (by rw [at_stem s k]; exact h) h2 (final_stem s rfl h3)
  | codevl h _ ih => exact fun k => .codevl (by rw [at_stem s k]; exact h) (ih k)
  | this h h2 => exact fun k => .this (by rw [at_stem s k]; exact h) (final_stem s rfl h2)
  | cptr h h2 h3 _ ih => exact fun k => .cptr (by rw [at_stem s k]; exact h) (by rw [words_stem s k]; exact h2) h3 (ih k)
  | walk g _ ih1 ih2 => exact fun k => .walk (ih1 k) (ih2 (by have := go_obj g k; exact this))

theorem den_stem {m : Mem} (s : Code) {b c v} (h : Den m b c v) : c.sp.isObj = true → Den { m with stem := s } b c v := by
  induction h with
  | atom h1 h2 h3 h4 => exact fun k => .atom (go_stem s h1 k) (by rw [word_stem s (go_obj h1 k)]; exact h2) h3 h4
  | raw h1 h2 h3 h4 h5 => exact fun k => .raw (go_stem s h1 k) (by rw [word_stem s (go_obj h1 k)]; exact h2) h3 h4 (by rw [words_stem s (go_obj h1 k)]; exact h5)
  | node h1 h2 h3 _ h5 ih => exact fun k => .node (go_stem s h1 k) (by rw [word_stem s (go_obj h1 k)]; exact h2) h3 (ih (by have := go_obj h1 k; exact this)) h5
  | nil => exact fun _ => .nil
  | cons _ _ ih1 ih2 => exact fun k => .cons (ih1 k) (ih2 k)

/-- A pointer to an argument has the value of the argument. -/
theorem den_ipgm {m : Mem} {c : Ctx} {k : Nat} {v : Val} (h : m.at c = some (.ipgm k)) (hv : Den m false ⟨.obj m.ipgm, k⟩ v) : Den m false c v := by
  cases hv with
  | atom h1 h2 h3 h4 => exact .atom (.ipgm h h1) h2 h3 h4
  | raw h1 h2 h3 h4 h5 => exact .raw (.ipgm h h1) h2 h3 h4 h5
  | node h1 h2 h3 h4 h5 => exact .node (.ipgm h h1) h2 h3 h4 h5

/-- C160, of the arguments as a whole: whatever the skeletons, if the patching does not read outside the code. -/
theorem C160_whole_partial {m m' : Mem} {L : Layout} (h : Laid m L) {N : Nat} (hr : run m N = some m') {i : Nat} (h1 : 1 ≤ i) (h2 : i ≤ L.n) {v : Val}
    (hv : Den m false ⟨.obj m.ipgm, L.t + i⟩ v) : Den m' false ⟨.stem, L.pat i + 1⟩ v := by
  obtain ⟨c, rfl, hc⟩ := run_spec h hr
  have hs := h.small
  refine den_ipgm (k := L.t + i) ?_ (den_stem c hv rfl)
  have := hc i h1 h2
  simp only [Mem.at, Mem.word, this, Option.map_some, (kind_ipgm (k := L.t + i) (by omega)).1]

/-- A skeleton without variables but itself: a variable, or nothing but constants and tail wildcards. -/
def Plain (m : Mem) (c : Ctx) (p v : Val) : Prop :=
  (∃ w, m.word c = some w ∧ getDescriptor w = 0x82) ∨ ∀ h ∈ holes p v, ∀ w, m.word h.1 = some w → getDescriptor w ≠ 0x82

theorem wild_kind {w : Word} (h : getDescriptor w = 0x82) : kind w = .wild := by
  unfold kind
  have : (getDescriptor w).toNat = 0x82 := by rw [h]; rfl
  rw [this]; rfl

theorem wild_den {m : Mem} {c : Ctx} {w : Word} {v : Val} (hw : m.word c = some w) (hd : getDescriptor w = 0x82) (h : Den m false c v) : v = .atom c w := by
  have hf : Final m c := ⟨.wild, by simp [Mem.at, hw, wild_kind hd], rfl⟩
  cases h with
  | atom g h2 _ _ => have := go_here hf g; subst this; rw [hw] at h2; cases h2; rfl
  | raw g h2 h3 _ _ => have := go_here hf g; subst this; rw [hw] at h2; cases h2; rw [wild_kind hd] at h3; cases h3
  | node g h2 h3 _ _ => have := go_here hf g; subst this; rw [hw] at h2; cases h2; rw [wild_kind hd] at h3; cases h3

/-- C160 for programs whose template arguments have no variables inside. -/
theorem C160_plain_partial {m m' : Mem} {L : Layout} {skel arg : Nat → Val} (h : Laid m L) (hg : Given m L skel arg) {N : Nat} (hr : run m N = some m')
    (hp : ∀ i, 1 ≤ i → i ≤ L.n → Plain m ⟨.stem, L.pat i + 1⟩ (skel i) (arg i)) : Filled m m' L skel arg := by
  refine ⟨fun i h1 h2 => C160_whole_partial h hr h1 h2 (hg.given i h1 h2), fun i h1 h2 x hx ⟨w, hw, hd⟩ => ?_⟩
  rcases hp i h1 h2 with ⟨u, hu, hud⟩ | hn
  · have e := wild_den hu hud (hg.pattern i h1 h2)
    rw [e] at hx
    have hh : hole u = true := by
      have := (desc_div u 0x82 (by omega)).mpr hud
      simp only [hole, this]; rfl
    simp only [holes, hh, if_true, List.mem_singleton] at hx
    subst hx
    exact ⟨_, C160_whole_partial h hr h1 h2 (hg.given i h1 h2), same_refl _⟩
  · exact absurd ((desc_div w 0x82 (by omega)).mp hd) (hn x hx w hw)

/-! ## When nothing is read outside the code -/

/-- The pattern is a variable with no guards, and where the code looks for the third word of the argument there is one. -/
structure Simple (m : Mem) (L : Layout) (i : Nat) : Prop where
  var : ∃ w, m.stem (L.pat i + 1) = some w ∧ getDescriptor w = 0x82
  guards : ∃ g, m.at ⟨.stem, L.pat i + 2⟩ = some (.iptr g) ∧ m.at ⟨.stem, g⟩ = some (.struct 0)
  arg : ∃ a b, (m.objs m.ipgm).code (L.t + i) = some a ∧ (m.objs m.ipgm).code ((asIndex a).toNat + 2) = some b

theorem patch_simple {inst c : Code} {p q : Nat} {h v g e x : Word} (hh : c p = some h) (hn : kind h = .struct 2) (hv : c (p + 1) = some v)
    (hd : getDescriptor v = 0x82) {k : Nat} (hg : c (p + 2) = some g) (hk : kind g = .iptr k) (hkp : k ≠ p + 1) (he : c k = some e) (hz : kind e = .struct 0)
    (hx : inst (q + 2) = some x) (N : Nat) :
    patchCode inst (N + 2) c p q = some (put c (p + 1) (ipgmPointer (BitVec.ofNat 16 (q + 1)))) := by
  have g1 := (kind_iptr hk).1
  have hp2 : ¬ p + 2 = p + 1 := by omega
  simp only [patchCode, hh, kind_struct hn, members, hv, hd, if_true, put, if_neg hp2, hg, g1, hx, (kind_iptr hk).2]
  simp only [show ¬ (0x84 : BitVec 8) = 0x82 by decide, show ¬ (0x84 : BitVec 8) = 0x83 by decide, if_false, if_neg hkp, he, kind_struct hz, members]

theorem args_total {inst : Code} {N s t : Nat} {pat : Nat → Nat} : ∀ (n i : Nat) {c : Code},
    (∀ j, i ≤ j → j < i + n → ∃ w, c (s + j) = some w ∧ getDescriptor w = 0x84 ∧ (asIndex w).toNat = pat j) →
    (∀ j k, i ≤ j → j < i + n → i ≤ k → k < i + n → s + j ≠ pat k + 1) →
    (∀ j k, i ≤ j → j < i + n → i ≤ k → k < i + n → pat j = pat k → j = k) →
    (∀ j, i ≤ j → j < i + n → ∃ h v g e k a x, c (pat j) = some h ∧ kind h = .struct 2 ∧ c (pat j + 1) = some v ∧ getDescriptor v = 0x82 ∧ c (pat j + 2) = some g ∧
      kind g = .iptr k ∧ c k = some e ∧ kind e = .struct 0 ∧ inst (t + j) = some a ∧ inst ((asIndex a).toNat + 2) = some x) →
    ∃ c', args inst (N + 2) s t i n c = some c'
  | 0, i, c, _, _, _, _ => ⟨_, rfl⟩
  | n + 1, i, c, hw, ha, hp, hs => by
    obtain ⟨w, w1, w2, w3⟩ := hw i (by omega) (by omega)
    obtain ⟨h, v, g, e, k, a, x, s1, s2, s3, s4, s5, s6, s7, s8, s9, s10⟩ := hs i (by omega) (by omega)
    have nk : ∀ {y : Nat} {u : Word}, c y = some u → getDescriptor u ≠ 0x82 → ∀ j, i ≤ j → j < i + (n + 1) → y ≠ pat j + 1 := fun hy hu j h1 h2 e => by
      obtain ⟨_, v', _, _, _, _, _, _, _, t3, t4, _⟩ := hs j h1 h2
      rw [e, t3] at hy; cases hy; exact hu t4
    have dg : getDescriptor g ≠ 0x82 := by rw [(kind_iptr s6).1]; decide
    have dk : ∀ {u : Word} {n : Nat}, kind u = .struct n → getDescriptor u ≠ 0x82 := fun hu hd => by rw [wild_kind hd] at hu; cases hu
    have hd := patch_simple (inst := inst) s1 s2 s3 s4 s5 s6 (nk s7 (dk s8) i (by omega) (by omega)) s7 s8 s10 N
    simp only [args, w1, s9, w3, hd]
    have kp : ∀ {y : Nat} {u : Word}, c y = some u → getDescriptor u ≠ 0x82 →
        put (put c (pat i + 1) (ipgmPointer (BitVec.ofNat 16 ((asIndex a).toNat + 1)))) (pat i + 1) (ipgmPointer (BitVec.ofNat 16 (t + i))) y = some u := fun hy hu => by
      simp only [put, if_neg (nk hy hu i (by omega) (by omega))]
      exact hy
    refine args_total n (i + 1) (fun j h1 h2 => ?_) (fun j k h1 h2 h3 h4 => ha j k (by omega) (by omega) (by omega) (by omega))
      (fun j k h1 h2 h3 h4 => hp j k (by omega) (by omega) (by omega) (by omega)) (fun j h1 h2 => ?_)
    · obtain ⟨u, u1, u2, u3⟩ := hw j (by omega) (by omega)
      exact ⟨u, kp u1 (by rw [u2]; decide), u2, u3⟩
    · obtain ⟨h', v', g', e', k', a', x', t1, t2, t3, t4, t5, t6, t7, t8, t9, t10⟩ := hs j (by omega) (by omega)
      have dg' : getDescriptor g' ≠ 0x82 := by rw [(kind_iptr t6).1]; decide
      refine ⟨h', v', g', e', k', a', x', kp t1 (dk t2), t2, ?_, t4, kp t5 dg', t6, kp t7 (dk t8), t8, t9, t10⟩
      have hne : ¬ pat j + 1 = pat i + 1 := fun e => by
        have := hp j i (by omega) (by omega) (by omega) (by omega) (by omega); omega
      simp only [put, if_neg hne]
      exact t3

/-- C160 for programs whose template arguments are variables without guards. -/
theorem C160_variables_partial {m : Mem} {L : Layout} {skel arg : Nat → Val} (h : Laid m L) (hg : Given m L skel arg)
    (hs : ∀ i, 1 ≤ i → i ≤ L.n → Simple m L i) (N : Nat) : ∃ m', run m (N + 2) = some m' ∧ Filled m m' L skel arg := by
  have : ∃ c', args (m.objs m.ipgm).code (N + 2) L.s L.t 1 L.n m.stem = some c' := by
    refine args_total (pat := L.pat) L.n 1 (laid_words h) (fun j k h1 h2 h3 h4 e => ?_) (fun j k h1 h2 h3 h4 e => h.apart j k h1 (by omega) h3 (by omega) e) fun j h1 h2 => ?_
    · have := h.after k h3 (by omega); omega
    · obtain ⟨⟨v, v1, v2⟩, ⟨k, g1, g2⟩, a, b, a1, a2⟩ := hs j h1 (by omega)
      obtain ⟨p, p1, p2⟩ := at_word (h.pats j h1 (by omega)).2
      obtain ⟨g, g3, g4⟩ := at_word g1
      obtain ⟨e, e1, e2⟩ := at_word g2
      exact ⟨p, v, g, e, k, a, b, p1, p2, v1, v2, g3, g4, e1, e2, a1, a2⟩
  obtain ⟨c, hc⟩ := this
  have hr : run m (N + 2) = some { m with stem := c } := by rw [run_eq h, hc]; rfl
  exact ⟨_, hr, C160_plain_partial h hg hr fun i h1 h2 => .inl (hs i h1 h2).var⟩

/-! ## Samples -/

/-- The code of a program and of its instance (objects 4 and 3). -/
def mem (pgm inst : List Word) : Mem :=
  { objs := fun o => if o = 3 then ⟨fun i => inst[i]?, [4]⟩ else if o = 4 then ⟨fun i => [0xC3000101#32, 7#32][i]?, []⟩ else ⟨fun _ => none, []⟩
    stem := fun i => pgm[i]?
    values := fun _ => none, pgm := 4, ipgm := 3, inputs := [], prods := [] }

/-- (pgm |[(ptn x: |[])] …): one template argument, a variable without guards. -/
def one : List Word := [0xC3000102#32, 0x84000003#32, 7#32, 0xC1000001#32, 0x84000005#32, 0xC3000202#32, 0x82000000#32, 0x84000008#32, 0xC1000000#32]

/-- (pgm |[(ptn (pair x: y:) |[])] …). -/
def two : List Word := [0xC3000102#32, 0x84000003#32, 7#32, 0xC1000001#32, 0x84000005#32, 0xC3000202#32, 0x84000009#32, 0x84000008#32, 0xC1000000#32,
  0xC3000302#32, 0x82000000#32, 0x82000000#32]

/-- (ipgm the_pgm |[(pair 1 2)] …). -/
def pair : List Word := [0xC9000402#32, 0x85000000#32, 0x84000003#32, 0xC1000001#32, 0x84000005#32, 0xC3000302#32, 0x3F800000#32, 0x40000000#32]

/-- (ipgm the_pgm |[v] …), `v` an atom. -/
def atomic (v : Word) : List Word := [0xC9000402#32, 0x85000000#32, 0x84000003#32, 0xC1000001#32, v]

def lay : Layout := ⟨3, 1, 3, fun _ => 5⟩

theorem laid {pgm inst : List Word} (h1 : (mem pgm inst).at ⟨.stem, 1⟩ = some (.iptr 3)) (h2 : (mem pgm inst).at ⟨.stem, 3⟩ = some (.struct 1))
    (h3 : (mem pgm inst).at ⟨.stem, 4⟩ = some (.iptr 5)) (h4 : (mem pgm inst).at ⟨.stem, 5⟩ = some (.struct 2)) (h5 : (mem pgm inst).at ⟨.obj 3, 2⟩ = some (.iptr 3)) :
    Laid (mem pgm inst) lay where
  set := h1
  count := h2
  pats := fun i a b => by
    obtain rfl : i = 1 := Nat.le_antisymm b a
    exact ⟨h3, h4⟩
  after := fun i a b => by show 3 + 1 < 5; decide
  apart := fun i j a b c d _ => (Nat.le_antisymm b a).trans (Nat.le_antisymm d c).symm
  first := by decide
  args := h5
  small := by decide

theorem given {pgm inst : List Word} {v w : Val} (h1 : Den (mem pgm inst) false ⟨.stem, 6⟩ v) (h2 : Den (mem pgm inst) false ⟨.obj 3, 4⟩ w) (h3 : Ctx.inst v w = true) :
    Given (mem pgm inst) lay (fun _ => v) (fun _ => w) where
  pattern := fun _ _ _ => h1
  given := fun i a b => by
    obtain rfl : i = 1 := Nat.le_antisymm b a
    exact h2
  fits := fun _ _ _ => h3

/-- The pair. -/
def couple (c : Ctx) (a b : Word) : Val := .node (ident c) 0xC3000302#32 (.cons (.atom (c.child 1) a) (.cons (.atom (c.child 2) b) .nil))

theorem pair_den (pgm : List Word) : Den (mem pgm pair) false ⟨.obj 3, 4⟩ (couple ⟨.obj 3, 5⟩ 0x3F800000#32 0x40000000#32) := by
  have f1 : (mem pgm pair).at ⟨.obj 3, 4⟩ = some (.iptr 5) := by show Option.map kind pair[4]? = _; decide
  have f2 : (mem pgm pair).at ⟨.obj 3, 5⟩ = some (.struct 2) := by show Option.map kind pair[5]? = _; decide
  have f3 : (mem pgm pair).at ⟨.obj 3, 6⟩ = some .atom := by show Option.map kind pair[6]? = _; decide
  have f4 : (mem pgm pair).at ⟨.obj 3, 7⟩ = some .atom := by show Option.map kind pair[7]? = _; decide
  exact .node (d := ⟨.obj 3, 5⟩) (n := 2) (.iptr (k := 5) f1 (.here (fin f2 rfl))) rfl (by decide)
    (.cons (.atom (.here (fin f3 rfl)) rfl (by decide) rfl) (.cons (.atom (.here (fin f4 rfl)) rfl (by decide) rfl) .nil)) rfl

theorem two_den : Den (mem two pair) false ⟨.stem, 6⟩ (couple ⟨.stem, 9⟩ 0x82000000#32 0x82000000#32) :=
  .node (d := ⟨.stem, 9⟩) (n := 2) (.iptr (k := 9) (by decide) (.here (fin (k := .struct 2) (by decide) rfl))) rfl (by decide)
    (.cons (.atom (.here (fin (k := .wild) (by decide) rfl)) rfl (by decide) rfl) (.cons (.atom (.here (fin (k := .wild) (by decide) rfl)) rfl (by decide) rfl) .nil)) rfl

theorem one_den (inst : List Word) : Den (mem one inst) false ⟨.stem, 6⟩ (.atom ⟨.stem, 6⟩ 0x82000000#32) :=
  .atom (.here (fin (k := .wild) (by show Option.map kind one[6]? = _; decide) rfl)) rfl (by decide) rfl

theorem atomic_den (pgm : List Word) : Den (mem pgm (atomic 0x3F8007FF#32)) false ⟨.obj 3, 4⟩ (.atom ⟨.obj 3, 4⟩ 0x3F8007FF#32) :=
  .atom (.here (fin (k := .atom) (by show Option.map kind (atomic 0x3F8007FF#32)[4]? = _; decide) rfl)) rfl (by decide) rfl

theorem laid_two : Laid (mem two pair) lay := laid (by decide) (by decide) (by decide) (by decide) (by decide)
theorem laid_one : Laid (mem one pair) lay := laid (by decide) (by decide) (by decide) (by decide) (by decide)
theorem laid_atom : Laid (mem one (atomic 0x3F8007FF#32)) lay := laid (by decide) (by decide) (by decide) (by decide) (by decide)

theorem given_two : Given (mem two pair) lay (fun _ => couple ⟨.stem, 9⟩ 0x82000000#32 0x82000000#32) (fun _ => couple ⟨.obj 3, 5⟩ 0x3F800000#32 0x40000000#32) :=
  given two_den (pair_den _) (by decide)
theorem given_one : Given (mem one pair) lay (fun _ => .atom ⟨.stem, 6⟩ 0x82000000#32) (fun _ => couple ⟨.obj 3, 5⟩ 0x3F800000#32 0x40000000#32) :=
  given (one_den _) (pair_den _) (by decide)
theorem given_atom : Given (mem one (atomic 0x3F8007FF#32)) lay (fun _ => .atom ⟨.stem, 6⟩ 0x82000000#32) (fun _ => .atom ⟨.obj 3, 4⟩ 0x3F8007FF#32) :=
  given (one_den _) (atomic_den _) (by decide)

/-- Reading outside the code of the instance. -/
theorem atom_none (N : Nat) : run (mem one (atomic 0x3F8007FF#32)) N = none := by
  cases N with
  | zero => rfl
  | succ N => rfl

/-- The first variable of the pair stands for the program. -/
theorem two_run (N : Nat) : ∃ m', run (mem two pair) (N + 2) = some m' ∧ Den m' false ⟨.stem, 10⟩ (.node (some 4) 0xC3000101#32 (.cons (.atom ⟨.obj 4, 1⟩ 7#32) .nil)) := by
  refine ⟨_, rfl, .node (d := ⟨.obj 4, 0⟩) (n := 1) (.ipgm (k := 1) ?_ (.rptr (k := 0) (o := 4) ?_ rfl (fin (k := .struct 1) ?_ rfl))) rfl (by decide)
    (.cons (.atom (.here (fin (k := .atom) ?_ rfl)) rfl (by decide) rfl) .nil) rfl⟩
  all_goals decide

theorem two_wrong {N : Nat} {m' : Mem} (hr : run (mem two pair) (N + 2) = some m') {v : Val} (hv : Den m' false ⟨.stem, 10⟩ v) : same v (.atom ⟨.obj 3, 6⟩ 0x3F800000#32) = false := by
  have hw : m'.word ⟨.obj 4, 0⟩ = some 0xC3000101#32 := by cases hr; rfl
  have a1 : m'.at ⟨.stem, 10⟩ = some (.ipgm 1) := by cases hr; decide
  have a2 : m'.at ⟨.obj m'.ipgm, 1⟩ = some (.rptr 0) := by cases hr; decide
  have a3 : (m'.objs (m'.object ⟨.obj m'.ipgm, 1⟩)).refs = [4] := by cases hr; rfl
  have key : ∀ d, Go m' ⟨.stem, 10⟩ [] d → d = ⟨.obj 4, 0⟩ := fun d g => by
    have g2 : Go m' ⟨.obj m'.ipgm, 1⟩ [] d := by
      cases g with
      | ipgm h1 h2 => rw [a1] at h1; cases h1; exact h2
      | here h => obtain ⟨k', h1, h2⟩ := h; rw [a1] at h1; cases h1; cases h2
      | _ => simp_all
    obtain ⟨o, h1, h2⟩ := go_rptr g2 a2
    rw [a3] at h1
    cases h1
    exact h2
  cases hv with
  | atom g h2 h3 _ => obtain rfl := key _ g; rw [hw] at h2; cases h2; exact absurd h3 (by decide)
  | raw g h2 h3 _ _ =>
    obtain rfl := key _ g; rw [hw] at h2; cases h2
    have : kind 0xC3000101#32 = .struct 1 := by decide
    rw [this] at h3; cases h3
  | node => rfl

/-- C160 does not hold: for an argument that is a number the code of the instance is read where the low bits of the number
say; and the variables inside a structure stand for other things than the parts of the argument. -/
theorem C160_template_violated : ¬ C160_full ∧
    (∃ m L skel arg, Laid m L ∧ Given m L skel arg ∧ ∀ N, run m N = none) ∧
    (∃ m L skel arg, Laid m L ∧ Given m L skel arg ∧ (∀ N, ∃ m', run m (N + 2) = some m') ∧ ∀ N m', run m (N + 2) = some m' → ¬ Filled m m' L skel arg) := by
  refine ⟨fun h => ?_, ⟨_, _, _, _, laid_atom, given_atom, atom_none⟩, _, _, _, _, laid_two, given_two, fun N => ?_, fun N m' hr hf => ?_⟩
  · obtain ⟨k, hk⟩ := h _ _ _ _ laid_atom given_atom
    obtain ⟨m', h1, _⟩ := hk k (Nat.le_refl _)
    rw [atom_none] at h1
    cases h1
  · obtain ⟨m', h1, _⟩ := two_run N
    exact ⟨m', h1⟩
  · obtain ⟨v, h1, h2⟩ := hf.parts 1 (by decide) (by decide) (⟨.stem, 10⟩, .atom ⟨.obj 3, 6⟩ 0x3F800000#32)
      (by
        show _ ∈ [((⟨.stem, 10⟩ : Ctx), Val.atom ⟨.obj 3, 6⟩ 0x3F800000#32), (⟨.stem, 11⟩, .atom ⟨.obj 3, 7⟩ 0x40000000#32)]
        exact List.mem_cons_self ..) ⟨0x82000000#32, rfl, by decide⟩
    rw [two_wrong hr h1] at h2
    cases h2

/-- The program with one variable, given a pair. -/
theorem C160_nonvacuous : Laid (mem one pair) lay ∧
    Given (mem one pair) lay (fun _ => .atom ⟨.stem, 6⟩ 0x82000000#32) (fun _ => couple ⟨.obj 3, 5⟩ 0x3F800000#32 0x40000000#32) ∧
    (∀ i, 1 ≤ i → i ≤ lay.n → Simple (mem one pair) lay i) ∧
    (∃ m', run (mem one pair) 2 = some m' ∧ m'.stem 6 = some 0x87000004#32) := by
  refine ⟨laid_one, given_one, fun i h1 h2 => ?_, _, rfl, rfl⟩
  obtain rfl : i = 1 := Nat.le_antisymm h2 h1
  exact ⟨⟨_, rfl, by decide⟩, ⟨8, by decide, by decide⟩, _, _, rfl, rfl⟩

end Verif.Tpl
