import Verif.Lapse.Spec
import Mathlib.Data.List.Induction
import Mathlib.Tactic.SplitIfs
/-!
# C140: what is built on a killed controller is killed
-/
namespace Verif.Lapse
open Relation

theorem netrun_snoc (n : Net) (h : List NetOp) (op : NetOp) : n.run (h ++ [op]) = (n.run h).step op := by
  simp [Net.run]

theorem Dep.mono {h h' : List NetOp} {k j : Nat} (hd : Dep h k j) : Dep (h ++ h') k j := by
  obtain ⟨d, h1, h2⟩ := hd
  exact ⟨d, by simp [h1], h2⟩

theorem Killed.mono {h h' : List NetOp} {j : Nat} (hk : Killed h j) : Killed (h ++ h') j := by
  obtain ⟨h1, h2, rfl, d, hd⟩ := hk
  exact ⟨h1, h2 ++ h', by simp, d, hd⟩

theorem reach_mono {h h' : List NetOp} {k j : Nat} (hr : ReflTransGen (Dep h) k j) : ReflTransGen (Dep (h ++ h')) k j := by
  induction hr with
  | refl => exact .refl
  | tail _ hd ih => exact ih.tail hd.mono

/-- What holds after any history. -/
structure NetInv (h : List NetOp) (n : Net) : Prop where
  made : ∀ k, n.made k = true ↔ ∃ d, NetOp.make k d ∈ h
  parts : ∀ k j, j ∈ n.parts k → Dep h k j
  sound : ∀ k, n.inv k = true → ∃ j, ReflTransGen (Dep h) k j ∧ Killed h j
  killed : ∀ j, Killed h j → n.inv j = true

theorem killed_snoc {h : List NetOp} {op : NetOp} {j : Nat} (hk : Killed (h ++ [op]) j) :
    Killed h j ∨ (op = .kill j ∧ ∃ d, NetOp.make j d ∈ h) := by
  obtain ⟨h1, h2, he, d, hd⟩ := hk
  rcases List.eq_nil_or_concat h2 with rfl | ⟨h2', x, rfl⟩
  · obtain ⟨e1, e2⟩ := List.append_inj' he (by simp)
    right
    rw [List.cons.injEq] at e2
    exact ⟨e2.1, d, e1 ▸ hd⟩
  · left
    have he' : h ++ [op] = (h1 ++ .kill j :: h2') ++ [x] := by rw [he]; simp
    obtain ⟨e1, -⟩ := List.append_inj' he' (by simp)
    exact ⟨h1, h2', e1, d, hd⟩

theorem NetInv.kill {h : List NetOp} {n : Net} (hi : NetInv h n) {k : Nat}
    (hk : ∃ j, ReflTransGen (Dep h) k j ∧ Killed h j) : NetInv h (n.kill k) := by
  refine ⟨hi.made, ?_, ?_, ?_⟩
  · intro k' j hj
    simp only [Net.kill] at hj
    split_ifs at hj
    · cases hj
    · exact hi.parts k' j hj
  · intro k' hk'
    simp only [Net.kill] at hk'
    split_ifs at hk' with he
    · rw [he]; exact hk
    · exact hi.sound k' hk'
  · intro j hj
    simp only [Net.kill]
    split_ifs
    · rfl
    · exact hi.killed j hj

theorem NetInv.mono {h : List NetOp} {n : Net} (hi : NetInv h n) {op : NetOp} (hm : ∀ k d, op ≠ .make k d)
    (hk : ∀ j, op = .kill j → ¬ ∃ d, NetOp.make j d ∈ h) : NetInv (h ++ [op]) n := by
  refine ⟨fun k => ?_, fun k j hj => (hi.parts k j hj).mono, fun k h1 => ?_, fun j hj => ?_⟩
  · rw [hi.made]
    constructor
    · rintro ⟨d, hd⟩; exact ⟨d, by simp [hd]⟩
    · rintro ⟨d, hd⟩
      simp only [List.mem_append, List.mem_singleton] at hd
      rcases hd with hd | hd
      · exact ⟨d, hd⟩
      · exact absurd hd.symm (hm k d)
  · obtain ⟨j, hr, hj⟩ := hi.sound k h1
    exact ⟨j, reach_mono hr, hj.mono⟩
  · rcases killed_snoc hj with hj | ⟨he, hd⟩
    · exact hi.killed j hj
    · exact absurd hd (hk j he)

theorem netinv (h : List NetOp) : NetInv h (Net.empty.run h) := by
  induction h using List.reverseRecOn with
  | nil =>
    refine ⟨by simp [Net.empty, Net.run], by simp [Net.empty, Net.run], by simp [Net.empty, Net.run], ?_⟩
    rintro j ⟨h1, h2, he, -⟩
    simp at he
  | append_singleton h op ih =>
    rw [netrun_snoc]
    generalize Net.empty.run h = n at ih
    cases op with
    | make k deps =>
      simp only [Net.step]
      by_cases hm : n.made k = true
      · rw [if_pos hm]
        refine ⟨fun k' => ?_, fun k' j hj => (ih.parts k' j hj).mono, fun k' h1 => ?_, fun j hj => ?_⟩
        · rw [ih.made]
          constructor
          · rintro ⟨d, hd⟩; exact ⟨d, by simp [hd]⟩
          · rintro ⟨d, hd⟩
            simp only [List.mem_append, List.mem_singleton, NetOp.make.injEq] at hd
            rcases hd with hd | ⟨rfl, -⟩
            · exact ⟨d, hd⟩
            · exact (ih.made _).1 hm
        · obtain ⟨j, hr, hj⟩ := ih.sound k' h1
          exact ⟨j, reach_mono hr, hj.mono⟩
        · rcases killed_snoc hj with hj | ⟨he, -⟩
          · exact ih.killed j hj
          · cases he
      · rw [if_neg hm]
        refine ⟨fun k' => ?_, fun k' j hj => ?_, fun k' h1 => ?_, fun j hj => ?_⟩
        · simp only
          split_ifs with he
          · rw [he]
            exact ⟨fun _ => ⟨deps, by simp⟩, fun _ => rfl⟩
          · rw [ih.made]
            constructor
            · rintro ⟨d, hd⟩; exact ⟨d, by simp [hd]⟩
            · rintro ⟨d, hd⟩
              simp only [List.mem_append, List.mem_singleton, NetOp.make.injEq] at hd
              rcases hd with hd | ⟨h1, -⟩
              · exact ⟨d, hd⟩
              · exact absurd h1 he
        · simp only at hj
          split_ifs at hj with he
          · rw [he]
            exact ⟨deps, by simp, (List.mem_filter.1 hj).1⟩
          · exact (ih.parts k' j hj).mono
        · obtain ⟨j, hr, hj⟩ := ih.sound k' h1
          exact ⟨j, reach_mono hr, hj.mono⟩
        · rcases killed_snoc hj with hj | ⟨he, -⟩
          · exact ih.killed j hj
          · cases he
    | kill k =>
      simp only [Net.step]
      by_cases hm : n.made k = true
      · rw [if_pos hm]
        obtain ⟨d, hd⟩ := (ih.made k).1 hm
        have hkk : Killed (h ++ [.kill k]) k := ⟨h, [], rfl, d, hd⟩
        refine ⟨fun k' => ?_, fun k' j hj => ?_, fun k' h1 => ?_, fun j hj => ?_⟩
        · change n.made k' = true ↔ _
          rw [ih.made]
          constructor
          · rintro ⟨d, hd⟩; exact ⟨d, by simp [hd]⟩
          · rintro ⟨d, hd⟩; simp at hd; exact ⟨d, hd⟩
        · simp only [Net.kill] at hj
          split_ifs at hj
          · cases hj
          · exact (ih.parts k' j hj).mono
        · simp only [Net.kill] at h1
          split_ifs at h1 with he
          · exact ⟨k, he ▸ .refl, hkk⟩
          · obtain ⟨j, hr, hj⟩ := ih.sound k' h1
            exact ⟨j, reach_mono hr, hj.mono⟩
        · simp only [Net.kill]
          split_ifs with he
          · rfl
          · rcases killed_snoc hj with hj | ⟨h1, -⟩
            · exact ih.killed j hj
            · cases h1; exact absurd rfl he
      · rw [if_neg hm]
        exact ih.mono (by simp) fun j hj hd => by
          cases hj
          exact hm ((ih.made _).2 hd)
    | turn k b =>
      have h1 := ih.mono (op := .turn k b) (by simp) (by simp)
      exact ⟨h1.made, h1.parts, h1.sound, h1.killed⟩
    | give k =>
      have h1 := ih.mono (op := .give k) (by simp) (by simp)
      simp only [Net.step]
      split_ifs with hc
      · refine h1.kill ?_
        simp only [Bool.and_eq_true, List.any_eq_true] at hc
        obtain ⟨-, p, hp, hpi⟩ := hc
        obtain ⟨j, hr, hj⟩ := h1.sound p hpi
        exact ⟨j, ReflTransGen.head (h1.parts k p hp) hr, hj⟩
      · exact h1

/-! ## Completeness -/

/-- Each controller is made after those it is built on. -/
def Built (h : List NetOp) : Prop :=
  ∀ h1 k deps h2, h = h1 ++ .make k deps :: h2 → ∀ j ∈ deps, ∃ d, NetOp.make j d ∈ h1

theorem Built.init {h : List NetOp} {op : NetOp} (hb : Built (h ++ [op])) : Built h :=
  fun h1 k deps h2 he => hb h1 k deps (h2 ++ [op]) (by simp [he])

theorem once_init {h : List NetOp} {op : NetOp} (ho : Once (h ++ [op])) : Once h := by
  unfold Once at ho ⊢
  rw [List.filterMap_append] at ho
  exact (List.nodup_append.1 ho).1

theorem once_fresh {h : List NetOp} {k : Nat} {deps d : List Nat} (ho : Once (h ++ [.make k deps])) : NetOp.make k d ∉ h := by
  intro hm
  unfold Once at ho
  rw [List.filterMap_append] at ho
  exact (List.nodup_append.1 ho).2.2 k (List.mem_filterMap.2 ⟨_, hm, rfl⟩) k (by simp) rfl

/-- A live controller refers to everything it was built on. -/
theorem parts_full (h : List NetOp) (ho : Once h) (hb : Built h) (k j : Nat) (hd : Dep h k j)
    (hi : (Net.empty.run h).inv k = false) : j ∈ (Net.empty.run h).parts k := by
  induction h using List.reverseRecOn with
  | nil => obtain ⟨d, h1, -⟩ := hd; cases h1
  | append_singleton h op ih =>
    have hn := netinv h
    rw [netrun_snoc] at hi ⊢
    have ih' := fun hd => ih (once_init ho) hb.init hd
    generalize Net.empty.run h = n at hn hi ih' ⊢
    obtain ⟨d, hm, hj⟩ := hd
    simp only [List.mem_append, List.mem_singleton] at hm
    cases op with
    | make k0 deps =>
      have hnew : n.made k0 ≠ true := by
        intro hx
        obtain ⟨d0, hd0⟩ := (hn.made k0).1 hx
        exact once_fresh ho hd0
      simp only [Net.step, if_neg hnew] at hi ⊢
      rcases hm with hm | hm
      · have hne : k ≠ k0 := by
          rintro rfl
          exact once_fresh ho hm
        rw [if_neg hne]
        exact ih' ⟨d, hm, hj⟩ hi
      · cases hm
        rw [if_pos rfl, List.mem_filter]
        exact ⟨hj, (hn.made j).2 (hb h k d [] rfl j hj)⟩
    | kill k0 =>
      simp only [Net.step] at hi ⊢
      have hm' : NetOp.make k d ∈ h := by simpa using hm
      by_cases hx : n.made k0 = true
      · rw [if_pos hx] at hi ⊢
        simp only [Net.kill] at hi ⊢
        by_cases he : k = k0
        · simp [he] at hi
        · rw [if_neg he] at hi ⊢
          exact ih' ⟨d, hm', hj⟩ hi
      · rw [if_neg hx] at hi ⊢
        exact ih' ⟨d, hm', hj⟩ hi
    | turn k0 b =>
      have hm' : NetOp.make k d ∈ h := by simpa using hm
      exact ih' ⟨d, hm', hj⟩ hi
    | give k0 =>
      have hm' : NetOp.make k d ∈ h := by simpa using hm
      simp only [Net.step] at hi ⊢
      split_ifs at hi ⊢
      · simp only [Net.kill] at hi ⊢
        by_cases he : k = k0
        · simp [he] at hi
        · rw [if_neg he] at hi ⊢
          exact ih' ⟨d, hm', hj⟩ hi
      · exact ih' ⟨d, hm', hj⟩ hi

/-- C140, the part that holds: nothing dies that is not built on something killed; and when no input kills
any more, everything built on something killed is dead, provided controllers were made after those they
are built on and are active. Missing: controllers that sleep, or were made first, outlive their parts. -/
theorem C140_cascade_partial (h : List NetOp) (k : Nat) :
    ((Net.empty.run h).inv k = true → ∃ j, ReflTransGen (Dep h) k j ∧ Killed h j) ∧
    (Once h → Built h → Settled (Net.empty.run h) → (∀ i d, NetOp.make i d ∈ h → (Net.empty.run h).on i = true) →
      (∃ j, ReflTransGen (Dep h) k j ∧ Killed h j) → (Net.empty.run h).inv k = true) := by
  have hn := netinv h
  refine ⟨hn.sound k, ?_⟩
  rintro ho hb hs hon ⟨j, hr, hj⟩
  induction hr using ReflTransGen.head_induction_on with
  | refl => exact hn.killed j hj
  | head hd hr ih =>
    rename_i a c
    clear hr
    by_contra hx
    simp only [Bool.not_eq_true] at hx
    have hp := parts_full h ho hb a c hd hx
    obtain ⟨d, hm, -⟩ := hd
    have h1 := congrFun (hs a) a
    rw [hx] at h1
    have hc : (!(Net.empty.run h).inv a && (Net.empty.run h).on a && ((Net.empty.run h).parts a).any (Net.empty.run h).inv) = true := by
      simp only [Bool.and_eq_true, List.any_eq_true]
      exact ⟨⟨by simp [hx], hon a d hm⟩, c, hp, ih⟩
    simp only [Net.step, hc, if_true, Net.kill] at h1
    cases h1

/-! ## Inputs settle -/

/-- Every controller of the list is handed an input. -/
def round (ks : List Nat) (n : Net) : Net := ks.foldl (fun n k => n.step (.give k)) n

/-- Controllers of the list that are not dead. -/
def left (ks : List Nat) (n : Net) : Nat := (ks.filter fun k => !n.inv k).length

theorem left_le {ks : List Nat} {n n' : Net} (h : ∀ k, n.inv k = true → n'.inv k = true) : left ks n' ≤ left ks n := by
  unfold left
  induction ks with
  | nil => simp
  | cons k l ih =>
    simp only [List.filter_cons]
    cases h1 : n.inv k <;> cases h2 : n'.inv k
    · simpa using ih
    · simp only [Bool.not_true, Bool.not_false, if_true, Bool.false_eq_true, if_false, List.length_cons]; omega
    · rw [h k h1] at h2; cases h2
    · simpa using ih

theorem left_lt {ks : List Nat} {n n' : Net} (h : ∀ k, n.inv k = true → n'.inv k = true) {k : Nat} (hk : k ∈ ks)
    (h1 : n.inv k = false) (h2 : n'.inv k = true) : left ks n' < left ks n := by
  induction ks with
  | nil => cases hk
  | cons x l ih =>
    have hle := left_le (ks := l) h
    unfold left at ih hle ⊢
    simp only [List.filter_cons]
    rcases List.mem_cons.1 hk with rfl | hk
    · simp only [h1, h2, Bool.not_true, Bool.not_false, if_true, Bool.false_eq_true, if_false, List.length_cons]; omega
    · have ih := ih hk
      cases h3 : n.inv x <;> cases h4 : n'.inv x
      · simpa using ih
      · simp only [Bool.not_true, Bool.not_false, if_true, Bool.false_eq_true, if_false, List.length_cons]; omega
      · rw [h x h3] at h4; cases h4
      · simpa using ih

theorem give_inv (n : Net) (k : Nat) :
    n.step (.give k) = n ∨ (n.inv k = false ∧ n.step (.give k) = n.kill k) := by
  simp only [Net.step]
  split_ifs with h
  · right
    simp only [Bool.and_eq_true, Bool.not_eq_true'] at h
    exact ⟨h.1.1, rfl⟩
  · left; rfl

theorem give_mono (n : Net) (k : Nat) : ∀ j, n.inv j = true → (n.step (.give k)).inv j = true := by
  intro j hj
  rcases give_inv n k with h | ⟨-, h⟩
  · rw [h]; exact hj
  · rw [h]
    simp only [Net.kill]
    split_ifs
    · rfl
    · exact hj

theorem round_mono (l : List Nat) (n : Net) : ∀ j, n.inv j = true → (round l n).inv j = true := by
  induction l generalizing n with
  | nil => exact fun _ h => h
  | cons k l ih => exact fun j hj => ih _ j (give_mono n k j hj)

theorem round_or (ks l : List Nat) (hl : ∀ k ∈ l, k ∈ ks) (n : Net) :
    (round l n = n ∧ ∀ k ∈ l, n.step (.give k) = n) ∨ left ks (round l n) < left ks n := by
  induction l generalizing n with
  | nil => left; exact ⟨rfl, by simp⟩
  | cons k l ih =>
    rcases give_inv n k with h | ⟨h1, h⟩
    · have e : round (k :: l) n = round l n := by
        change round l (n.step (.give k)) = _
        rw [h]
      rw [e]
      rcases ih (fun x hx => hl x (by simp [hx])) n with ⟨h2, h3⟩ | h2
      · left
        refine ⟨h2, fun x hx => ?_⟩
        rcases List.mem_cons.1 hx with rfl | hx
        · exact h
        · exact h3 x hx
      · right; exact h2
    · right
      change left ks (round l (n.step (.give k))) < _
      have h2 : left ks (n.step (.give k)) < left ks n :=
        left_lt (give_mono n k) (hl k (by simp)) h1 (by rw [h]; simp [Net.kill])
      exact Nat.lt_of_le_of_lt (left_le (round_mono l _)) h2

/-- The inputs settle the matter: after as many rounds of inputs as there are controllers, no input kills
one of them any more. -/
theorem C140_settles (ks : List Nat) (n : Net) : ∀ k ∈ ks, ((round ks)^[ks.length] n).step (.give k) = (round ks)^[ks.length] n := by
  have key : ∀ i, (∀ k ∈ ks, ((round ks)^[i] n).step (.give k) = (round ks)^[i] n) ∨ left ks ((round ks)^[i] n) + i ≤ left ks n := by
    intro i
    induction i with
    | zero => right; simp
    | succ i ih =>
      rw [Function.iterate_succ_apply']
      rcases ih with h | h
      · left
        have : round ks ((round ks)^[i] n) = (round ks)^[i] n := by
          generalize (round ks)^[i] n = x at h
          clear * - h
          induction ks with
          | nil => rfl
          | cons k l ih =>
            change round l (x.step (.give k)) = x
            rw [h k (by simp)]
            exact ih fun y hy => h y (by simp [hy])
        rw [this]
        exact h
      · rcases round_or ks ks (fun _ h => h) ((round ks)^[i] n) with ⟨h1, h2⟩ | h1
        · left; rw [h1]; exact h2
        · right; omega
  rcases key ks.length with h | h
  · exact h
  · intro k hk
    have hle : left ks n ≤ ks.length := List.length_filter_le _ _
    have h0 : left ks ((round ks)^[ks.length] n) = 0 := by omega
    rcases give_inv ((round ks)^[ks.length] n) k with h1 | ⟨h1, -⟩
    · exact h1
    · exfalso
      unfold left at h0
      rw [List.length_eq_zero_iff, List.filter_eq_nil_iff] at h0
      exact h0 k hk (by simp [h1])

/-- A sleeping controller, and one that was made before its part, outlive the part. -/
theorem C140_cascade_violated : ¬ C140_full ∧
    (Net.empty.run [.make 0 [], .make 1 [0], .turn 1 false, .kill 0, .give 0, .give 1]).inv 1 = false ∧
    (Net.empty.run [.make 1 [0], .make 0 [], .kill 0, .give 0, .give 1]).inv 1 = false := by
  refine ⟨fun hf => ?_, rfl, rfl⟩
  have hs : Settled (Net.empty.run [.make 1 [0], .make 0 [], .kill 0]) := by
    intro k
    rcases give_inv (Net.empty.run [.make 1 [0], .make 0 [], .kill 0]) k with h | ⟨h, -⟩
    · rw [h]
    · simp only [Net.step]
      split_ifs with hc
      · exfalso
        simp only [Bool.and_eq_true, List.any_eq_true] at hc
        obtain ⟨-, p, hp, -⟩ := hc
        simp [Net.run, Net.step, Net.empty, Net.kill] at hp
      · rfl
  have := (hf [.make 1 [0], .make 0 [], .kill 0] 1 (by simp [Once]) hs).2
    ⟨0, .single ⟨[0], by simp, by simp⟩, [.make 1 [0], .make 0 []], [], rfl, [], by simp⟩
  cases this

theorem C140_nonvacuous :
    (Net.empty.run [.make 0 [], .make 1 [0], .make 2 [1, 0], .make 3 [], .kill 0, .give 2, .give 1, .give 3, .give 2]).inv 2 = true ∧
    (Net.empty.run [.make 0 [], .make 1 [0], .make 2 [1, 0], .make 3 [], .kill 0, .give 2, .give 1, .give 3, .give 2]).inv 3 = false ∧
    Once [.make 0 [], .make 1 [0], .make 2 [1, 0], .make 3 [], .kill 0, .give 2, .give 1, .give 3, .give 2] := by
  refine ⟨rfl, rfl, by simp [Once]⟩

end Verif.Lapse
