import Verif.Extract.Model
import Verif.Cst.Props
/-!
# C83, C84: composite states for observations
-/
namespace Verif.Extract

/-! ## C83 -/

/-- Fact `x` holds when `c` starts to, up to the tolerance. -/
def Meanwhile (W : World) (tol : Int) (c x : Nat) : Prop :=
  (W x).after ≤ (W c).after + tol ∧ (W c).after < (W x).before
instance (W : World) (tol : Int) (c x : Nat) : Decidable (Meanwhile W tol c x) := by unfold Meanwhile; infer_instance

/-- The inputs synchronous with `c`, and `c`. -/
def together (W : World) (tol : Int) (c : Nat) (is : List Inp) : List Nat :=
  (is.map Inp.fact).filter fun x => decide (c = x ∨ Meanwhile W tol c x)

theorem sync_iff (W : World) (tol : Int) (c x : Nat) : sync tol (W c) (W x) = true ↔ Meanwhile W tol c x := by
  unfold sync Meanwhile
  simp only [Bool.not_eq_true', Bool.or_eq_false_iff, decide_eq_false_iff_not]
  omega

/-- The new state is about `c` first and about more; about the facts observed together with it, except those that are parts of an
instance observed as well; not about instances none of whose parts was observed. The inputs observed together are
not tried again. -/
structure Assembled (W : World) (tol : Int) (c : Nat) (is : List Inp) (m : Made) : Prop where
  first : m.objs.head? = some c
  two : 2 ≤ m.objs.length
  nodup : m.objs.Nodup
  inside : ∀ x ∈ m.objs, x ∈ together W tol c is
  plain : ∀ x, x ≠ c → (W x).inst = none →
    (x ∈ m.objs ↔ x ∈ together W tol c is ∧ ∀ y ∈ together W tol c is, y ≠ c → x ∉ partsOf W y)
  idle : ∀ y ∈ together W tol c is, y ≠ c → (W y).inst.isSome → (∀ x ∈ partsOf W y, x ∉ together W tol c is) →
    y ∉ m.objs
  flagged : m.inputs = is.map fun i => if i.fact ∈ together W tol c is then { i with eligible := false } else i

/-- The new instance, as the fact `n`, is found for each component with the pattern made from it. -/
def Again (W : World) (n : Nat) (m : Made) : Prop :=
  ∀ x ∈ m.objs, findPart (fun f => if f = n then ⟨0, 0, some m.inst⟩ else W f) 3 n x = some (some x)

/-- C83: for all observations and inputs, when no instance observed has the observation as a part. -/
def C83_full : Prop :=
  ∀ (W : World) (tol : Int) (c : Nat) (is : List Inp), (is.map Inp.fact).Nodup → c ∈ is.map Inp.fact →
    (∀ y ∈ together W tol c is, c ∉ partsOf W y) →
    ∃ r, makeState W tol c is = some r ∧ (∀ m, r = some m → Assembled W tol c is m ∧ ∀ n, Again W n m) ∧
      (r = none → ∀ x ∈ together W tol c is, x ≠ c → (W x).inst = none → ∃ y ∈ together W tol c is, x ∈ partsOf W y)

/-- The components, `D` telling which are discarded. -/
def comps (S : List Nat) (D : Nat → Bool) : List Comp := S.map fun x => ⟨x, D x⟩

theorem comps_get {S : List Nat} {D : Nat → Bool} {k : Nat} : (comps S D)[k]? = (S[k]?).map fun x => ⟨x, D x⟩ := by
  simp [comps]

theorem mark_comps {S : List Nat} (hS : S.Nodup) (D : Nat → Bool) {j x : Nat} (hj : S[j]? = some x) :
    mark (comps S D) j = comps S fun y => D y || y == x := by
  apply List.ext_getElem?
  intro k
  rw [mark, List.getElem?_modify, comps_get, comps_get]
  by_cases h : j = k
  · subst h
    simp [hj]
  · cases hk : S[k]? with
    | none => simp
    | some y =>
      have : y ≠ x := fun e => h (by
        subst e
        exact (List.getElem?_inj (List.getElem?_eq_some_iff.1 hj).1 hS).1 (hj.trans hk.symm))
      simp [h, this]

theorem foldl_mark {S : List Nat} (hS : S.Nodup) (js : List Nat) (hj : ∀ j ∈ js, j < S.length) (D : Nat → Bool) :
    js.foldl mark (comps S D) = comps S fun y => D y || js.any fun j => S[j]? == some y := by
  induction js generalizing D with
  | nil => simp
  | cons j js ih =>
    have hl := hj j (by simp)
    rw [List.foldl_cons, mark_comps hS D (List.getElem?_eq_getElem hl), ih (fun k hk => hj k (by simp [hk]))]
    congr 1
    funext y
    rw [List.any_cons, List.getElem?_eq_getElem hl, Bool.or_assoc]
    congr 2
    rw [Bool.eq_iff_iff, beq_iff_eq, beq_iff_eq, Option.some.injEq]
    exact eq_comm

theorem mem_found {S : List Nat} {D : Nat → Bool} {parts : List Nat} {j : Nat} :
    j ∈ found parts (comps S D) ↔ ∃ x, S[j]? = some x ∧ D x = false ∧ x ∈ parts := by
  unfold found
  simp only [List.mem_flatMap, List.mem_range, comps_get]
  constructor
  · rintro ⟨k, hk, h⟩
    cases hx : S[k]? with
    | none => rw [hx] at h; cases h
    | some x =>
      rw [hx] at h
      simp only [Option.map_some] at h
      cases hd : D x with
      | true => rw [hd, if_pos rfl] at h; cases h
      | false =>
        rw [hd, if_neg (by simp), List.mem_replicate] at h
        obtain ⟨h1, rfl⟩ := h
        exact ⟨x, hx, hd, List.count_pos_iff.1 (Nat.pos_of_ne_zero h1)⟩
  · rintro ⟨x, hx, hd, hp⟩
    refine ⟨j, by simp only [comps, List.length_map]; exact (List.getElem?_eq_some_iff.1 hx).1, ?_⟩
    simp only [hx, Option.map_some, hd, Bool.false_eq_true, if_false, List.mem_replicate]
    exact ⟨Nat.ne_of_gt (List.count_pos_iff.2 hp), trivial⟩

theorem sum_count_le (S : List Nat) (hS : S.Nodup) (parts : List Nat) :
    (S.map fun x => parts.count x).sum ≤ parts.length := by
  induction parts with
  | nil => simp
  | cons p ps ih =>
    have h : (S.map fun x => (p :: ps).count x).sum = (S.map fun x => ps.count x).sum + S.count p := by
      clear ih
      induction S with
      | nil => simp
      | cons x S ihS =>
        rw [List.map_cons, List.sum_cons, List.map_cons, List.sum_cons, ihS (List.nodup_cons.1 hS).2, List.count_cons,
          List.count_cons]
        by_cases hx : p = x
        · subst hx; simp only [beq_self_eq_true, if_true]; omega
        · have hx' : ¬ x = p := fun e => hx e.symm
          simp only [beq_iff_eq, if_neg hx, if_neg hx']; omega
    have h1 : S.count p ≤ 1 := List.nodup_iff_count.1 hS p
    rw [h, List.length_cons]
    omega

theorem sum_le (l : List Nat) (f g : Nat → Nat) (h : ∀ x ∈ l, f x ≤ g x) : (l.map f).sum ≤ (l.map g).sum := by
  induction l with
  | nil => exact Nat.le_refl _
  | cons a l ih =>
    simp only [List.map_cons, List.sum_cons]
    have := ih fun x hx => h x (by simp [hx])
    have := h a (by simp)
    omega

theorem found_length (S : List Nat) (hS : S.Nodup) (D : Nat → Bool) (parts : List Nat) :
    (found parts (comps S D)).length ≤ parts.length := by
  refine Nat.le_trans ?_ (sum_count_le S hS parts)
  unfold found
  rw [List.length_flatMap]
  have e : S.map (fun x => parts.count x) = (List.range S.length).map fun j => ((S[j]?).map fun x => parts.count x).getD 0 := by
    apply List.ext_getElem?
    intro k
    simp only [List.getElem?_map]
    by_cases hk : k < S.length
    · rw [List.getElem?_range hk]
      simp [List.getElem?_eq_getElem hk]
    · rw [List.getElem?_eq_none (by omega), List.getElem?_eq_none (by simp; omega)]
      rfl
  rw [e, show (comps S D).length = S.length by simp [comps]]
  apply sum_le
  intro j hj
  have hj := List.mem_range.1 hj
  rw [comps_get, List.getElem?_eq_getElem hj]
  simp only [Option.map_some, Option.getD_some]
  split <;> simp

/-- One round, when a part of the instance is there. -/
theorem filterParts_some {S : List Nat} (hS : S.Nodup) (D : Nat → Bool) (parts : List Nat) (index z : Nat)
    (hz : z ∈ S) (hd : D z = false) (hp : z ∈ parts) :
    filterParts parts index (comps S D) = some (comps S fun x => D x || decide (x ∈ parts)) := by
  have hl := found_length S hS D parts
  obtain ⟨j, hj⟩ := List.getElem?_of_mem hz
  have hf : j ∈ found parts (comps S D) := mem_found.2 ⟨z, hj, hd, hp⟩
  unfold filterParts
  simp only
  rw [if_neg (by omega), if_pos (List.length_pos_of_mem hf), foldl_mark hS _ (fun k hk => by
    obtain ⟨x, hx, -⟩ := mem_found.1 hk
    exact (List.getElem?_eq_some_iff.1 hx).1)]
  congr 1
  unfold comps
  apply List.map_congr_left
  intro x hx
  congr 1
  show (D x || _) = (D x || _)
  cases hD : D x with
  | true => rfl
  | false =>
    rw [Bool.false_or, Bool.false_or]
    rw [Bool.eq_iff_iff]
    simp only [List.any_eq_true, beq_iff_eq, decide_eq_true_eq]
    constructor
    · rintro ⟨k, hk, hkx⟩
      obtain ⟨y, hy, -, h⟩ := mem_found.1 hk
      rw [hkx] at hy
      cases hy
      exact h
    · intro h
      obtain ⟨k, hk⟩ := List.getElem?_of_mem hx
      exact ⟨k, mem_found.2 ⟨x, hk, hD, h⟩, hk⟩

/-- All rounds: each instance, `ys` in this order, has a part that none of the others has. -/
theorem filterAll_spec (W : World) {S : List Nat} (hS : S.Nodup) (ys : List Nat) (ks : List Nat) (j : Nat)
    (D : Nat → Bool) (hk : ks.map (fun k => S[k]?) = ys.map some)
    (hgood : ∀ y ∈ ys, ∃ z ∈ S, D z = false ∧ z ∈ partsOf W y ∧ ∀ y' ∈ ys, y' ≠ y → z ∉ partsOf W y') (hnd : ys.Nodup) :
    filterAll W j ks (comps S D) = some (comps S fun x => D x || ys.any fun y => decide (x ∈ partsOf W y)) := by
  induction ys generalizing ks j D with
  | nil =>
    cases ks with
    | nil => simp [filterAll]
    | cons => cases hk
  | cons y ys ih =>
    cases ks with
    | nil => cases hk
    | cons k ks =>
      simp only [List.map_cons, List.cons.injEq] at hk
      obtain ⟨hk1, hk2⟩ := hk
      obtain ⟨z, hz, hd, hp, -⟩ := hgood y (by simp)
      unfold filterAll
      rw [comps_get, hk1]
      simp only [Option.map_some]
      rw [filterParts_some hS D _ _ z hz hd hp, Option.bind_some]
      have hgood' : ∀ y1 ∈ ys, ∃ z ∈ S, (D z || decide (z ∈ partsOf W y)) = false ∧ z ∈ partsOf W y1 ∧
          ∀ y' ∈ ys, y' ≠ y1 → z ∉ partsOf W y' := by
        intro y1 hy1
        obtain ⟨z, hz, hd, hp, hn⟩ := hgood y1 (by simp [hy1])
        have hne : y ≠ y1 := fun e => (List.nodup_cons.1 hnd).1 (e ▸ hy1)
        exact ⟨z, hz, by simp [hd, hn y (by simp) hne], hp, fun y' hy' => hn y' (by simp [hy'])⟩
      rw [ih ks (j + 1) _ hk2 hgood' (List.nodup_cons.1 hnd).2]
      simp only [List.any_cons, Bool.or_assoc]

/-- The instances among facts, other than `c`. -/
def insts (W : World) (c : Nat) (S : List Nat) : List Nat := S.filter fun x => decide (x ≠ c) && (W x).inst.isSome

theorem gather_spec (W : World) (tol : Int) (c : Nat) (is : List Inp) (T : List Nat) (ks : List Nat)
    (hk : ks.map (fun k => T[k]?) = (insts W c T).map some) :
    ∃ ks', gather W tol c is (comps T fun _ => false) ks = (comps (T ++ together W tol c is) fun _ => false, ks') ∧
      ks'.map (fun k => (T ++ together W tol c is)[k]?) = (insts W c (T ++ together W tol c is)).map some := by
  induction is generalizing T ks with
  | nil => exact ⟨ks, by simp [gather, together], by simpa [together] using hk⟩
  | cons i is ih =>
    have hold : ∀ x, ks.map (fun k => (T ++ [x])[k]?) = (insts W c T).map some := by
      intro x
      rw [← hk]
      apply List.map_congr_left
      intro k hkm
      have : T[k]? ∈ (insts W c T).map some := hk ▸ List.mem_map.2 ⟨k, hkm, rfl⟩
      obtain ⟨y, -, hy⟩ := List.mem_map.1 this
      rw [List.getElem?_append_left (List.getElem?_eq_some_iff.1 hy.symm).1]
    have hsnoc : ∀ x, comps T (fun _ => false) ++ [⟨x, false⟩] = comps (T ++ [x]) fun _ => false := by
      intro x; simp [comps]
    unfold gather
    by_cases h1 : c = i.fact
    · have ht : together W tol c (i :: is) = c :: together W tol c is := by
        simp [together, ← h1]
      rw [if_pos h1, hsnoc, ht]
      have := ih (T ++ [c]) ks (by rw [hold]; simp [insts])
      simpa using this
    · rw [if_neg h1]
      by_cases h2 : sync tol (W c) (W i.fact) = true
      · have ht : together W tol c (i :: is) = i.fact :: together W tol c is := by
          simp [together, (sync_iff W tol c i.fact).1 h2]
        rw [if_pos h2, hsnoc, ht]
        have h1' : ¬ i.fact = c := fun e => h1 e.symm
        have := ih (T ++ [i.fact]) (if (W i.fact).inst.isSome then ks ++ [(comps T fun _ => false).length] else ks) (by
          cases h3 : (W i.fact).inst.isSome with
          | true =>
            rw [if_pos rfl, List.map_append, hold]
            simp [insts, h1', h3, comps]
          | false =>
            rw [if_neg (by simp), hold]
            simp [insts, h3])
        simpa using this
      · have ht : together W tol c (i :: is) = together W tol c is := by
          simp only [together, List.map_cons]
          rw [List.filter_cons_of_neg (by
            rw [decide_eq_true_eq]
            exact fun e => e.elim h1 fun e => h2 ((sync_iff W tol c i.fact).2 e))]
        rw [if_neg h2, ht]
        exact ih T ks hk

theorem order_comps (c : Nat) (S : List Nat) (D : Nat → Bool) (hc : c ∈ S) (hd : D c = false) :
    order c (comps S D) = c :: S.filter fun x => !D x && x != c := by
  unfold order
  rw [if_pos]
  · simp only [comps, List.filter_map, List.map_map, List.singleton_append, List.cons.injEq, true_and]
    show List.map id (S.filter fun x => !D x && x != c) = _
    exact List.map_id _
  · simp only [comps, List.any_map, List.any_eq_true]
    exact ⟨c, hc, by simp [hd]⟩

/-- C83 in part: when each instance observed has a part that was observed and belongs to no other of them. Missing:
instances without such a part, of which the wrong component is discarded, and finding the new instance again. -/
theorem C83_assembled_partial (W : World) (tol : Int) (c : Nat) (is : List Inp) (hnd : (is.map Inp.fact).Nodup)
    (hc : c ∈ is.map Inp.fact) (hp : ∀ y ∈ together W tol c is, c ∉ partsOf W y)
    (hown : ∀ y ∈ together W tol c is, y ≠ c → (W y).inst.isSome → ∃ z ∈ together W tol c is, z ∈ partsOf W y ∧
      ∀ y' ∈ together W tol c is, y' ≠ y → y' ≠ c → z ∉ partsOf W y') :
    ∃ r, makeState W tol c is = some r ∧ (∀ m, r = some m → Assembled W tol c is m) ∧
      (r = none → ∀ x ∈ together W tol c is, x ≠ c → ∃ y ∈ together W tol c is, x ∈ partsOf W y) := by
  have hS : (together W tol c is).Nodup := hnd.filter _
  have hcS : c ∈ together W tol c is := List.mem_filter.2 ⟨hc, by simp⟩
  obtain ⟨ks, hg, hks⟩ := gather_spec W tol c is [] [] (by simp [insts])
  simp only [List.nil_append] at hg hks
  change gather W tol c is [] [] = _ at hg
  generalize hSe : together W tol c is = S at *
  have hin : ∀ y, y ∈ insts W c S ↔ y ∈ S ∧ y ≠ c ∧ (W y).inst.isSome := by
    intro y; simp [insts]
  have hall := filterAll_spec W hS (insts W c S) ks 0 (fun _ => false) hks (by
    intro y hy
    obtain ⟨h1, h2, h3⟩ := (hin y).1 hy
    obtain ⟨z, hz, hzp, hzn⟩ := hown y h1 h2 h3
    exact ⟨z, hz, rfl, hzp, fun y' hy' hne => hzn y' ((hin y').1 hy').1 hne ((hin y').1 hy').2.1⟩) (hS.filter _)
  simp only [Bool.false_or] at hall
  generalize hD : (fun x => (insts W c S).any fun y => decide (x ∈ partsOf W y)) = D at hall
  have hDx : ∀ x, D x = true ↔ ∃ y ∈ S, y ≠ c ∧ x ∈ partsOf W y := by
    intro x
    rw [← hD]
    simp only [List.any_eq_true, decide_eq_true_eq]
    constructor
    · rintro ⟨y, hy, hx⟩
      exact ⟨y, ((hin y).1 hy).1, ((hin y).1 hy).2.1, hx⟩
    · rintro ⟨y, hy, hne, hx⟩
      refine ⟨y, (hin y).2 ⟨hy, hne, ?_⟩, hx⟩
      unfold partsOf at hx
      cases h : (W y).inst with
      | none => rw [h] at hx; cases hx
      | some => rfl
  have hDc : D c = false := by
    rw [Bool.eq_false_iff]
    intro h
    obtain ⟨y, hy, -, hx⟩ := (hDx c).1 h
    exact hp y hy hx
  have hflag : flag (comps S D) is = is.map fun i => if i.fact ∈ S then { i with eligible := false } else i := by
    unfold flag
    apply List.map_congr_left
    intro i _
    have : ((comps S D).any fun x => x.object == i.fact) = true ↔ i.fact ∈ S := by
      simp only [comps, List.any_map, List.any_eq_true, Function.comp, beq_iff_eq]
      exact ⟨fun ⟨x, hx, e⟩ => e ▸ hx, fun h => ⟨_, h, rfl⟩⟩
    by_cases h : i.fact ∈ S
    · rw [if_pos (this.2 h), if_pos h]
    · rw [if_neg (fun e => h (this.1 e)), if_neg h]
  have hmem : ∀ x, x ∈ c :: (S.filter fun x => !D x && x != c) ↔ x = c ∨ (x ∈ S ∧ D x = false ∧ x ≠ c) := by
    intro x; simp
  have hlen : ((comps S D).filter fun x => !x.discarded).length = (S.filter fun x => !D x).length := by
    simp [comps, List.filter_map, Function.comp_def]
  unfold makeState
  rw [hg]
  simp only [hall, Option.map_some]
  refine ⟨_, rfl, ?_, ?_⟩
  · intro m hm
    split at hm
    · cases hm
    · rename_i hle
      rw [order_comps c S D hcS hDc] at hm
      cases hm
      refine ⟨rfl, ?_, ?_, ?_, ?_, ?_, ?_⟩
      · have hsub : (S.filter fun x => !D x).Subperm (c :: S.filter fun x => !D x && x != c) :=
          List.subperm_of_subset (hS.filter _) (by
            intro a ha
            simp only [List.mem_filter, Bool.not_eq_true'] at ha
            rw [hmem]
            by_cases h : a = c
            · exact Or.inl h
            · exact Or.inr ⟨ha.1, ha.2, h⟩)
        have := hsub.length_le
        rw [hlen] at hle
        show 2 ≤ (c :: _).length
        omega
      · exact List.nodup_cons.2 ⟨by simp, hS.filter _⟩
      · intro x hx
        rw [hSe]
        rcases (hmem x).1 hx with rfl | h
        · exact hcS
        · exact h.1
      · intro x hne _
        rw [hSe]
        rw [hmem]
        constructor
        · rintro (h | ⟨h1, h2, -⟩)
          · exact absurd h hne
          · exact ⟨h1, fun y hy hyc hx => by simp [(hDx x).2 ⟨y, hy, hyc, hx⟩] at h2⟩
        · rintro ⟨h1, h2⟩
          refine Or.inr ⟨h1, Bool.eq_false_iff.2 fun h => ?_, hne⟩
          obtain ⟨y, hy, hyc, hx⟩ := (hDx x).1 h
          exact h2 y hy hyc hx
      · intro y hy hne hi hno
        rw [hSe] at hy hno
        obtain ⟨z, hz, hzp, -⟩ := hown y hy hne hi
        exact absurd hz (hno z hzp)
      · simp only [hSe]
        exact hflag
  · intro hr x hx hne
    split at hr
    · rename_i hle
      by_contra hno
      have hDf : D x = false := Bool.eq_false_iff.2 fun h => by
        obtain ⟨y, hy, -, h⟩ := (hDx x).1 h
        exact hno ⟨y, hy, h⟩
      have hsub : [c, x].Subperm (S.filter fun x => !D x) :=
        List.subperm_of_subset (List.nodup_cons.2 ⟨by simpa using Ne.symm hne, by simp⟩ : [c, x].Nodup) (by
          intro a ha
          rcases List.mem_cons.1 ha with rfl | ha
          · simp [hcS, hDc]
          · rw [List.mem_singleton.1 ha]; simp [hx, hDf])
      have := hsub.length_le
      rw [← hlen] at this
      simp only [List.length_cons, List.length_nil] at this
      omega
    · cases hr

/-- Facts all at time 0, of which those in the table are instances with these parts. -/
def at0 (t : List (Nat × List Nat)) : World := fun x =>
  ⟨0, 10, (t.find? fun e => e.1 == x).map fun e => ⟨e.2, e.2, e.2.map fun z => (z, z)⟩⟩
def inputs (l : List Nat) : List Inp := l.map fun x => ⟨x, true⟩

/-- When an instance of which no part was observed comes with the observation, the component discarded is the
first of all, not the instance: here the observation itself, so that the state made is about something else. When
an input occurs twice more positions are found than there is room for. The instance of the new state has no
components, so that it is not found later. -/
theorem C83_wrong_component_violated :
    ¬ C83_full ∧
    (makeState (at0 [(2, [7])]) 0 0 (inputs [0, 1, 2])).map (Option.map Made.objs) = some (some [1, 2]) ∧
    makeState (at0 [(2, [1])]) 0 0 (inputs [0, 1, 1, 2]) = none ∧
    (makeState (at0 []) 0 0 (inputs [0, 1])).map (Option.map fun m =>
      (m.objs, findPart (fun f => if f = 9 then ⟨0, 0, some m.inst⟩ else at0 [] f) 3 9 0)) = some (some ([0, 1], some none)) := by
  have h1 : (makeState (at0 [(2, [7])]) 0 0 (inputs [0, 1, 2])).map (Option.map Made.objs) = some (some [1, 2]) := by
    decide
  refine ⟨fun h => ?_, h1, by decide, by decide⟩
  obtain ⟨r, hr, hm, -⟩ := h (at0 [(2, [7])]) 0 0 (inputs [0, 1, 2]) (by decide) (by decide) (by decide)
  rw [hr] at h1
  simp only [Option.map_some, Option.some.injEq] at h1
  cases r with
  | none => cases h1
  | some m =>
    simp only [Option.map_some, Option.some.injEq] at h1
    have := (hm m rfl).1.first
    rw [h1] at this
    cases this

/-- An observation with two plain facts and an instance that covers one of them. -/
theorem C83_nonvacuous :
    let W := at0 [(3, [1])]
    (makeState W 0 0 (inputs [0, 1, 2, 3])).map (Option.map fun m => (m.objs, m.inputs)) =
      some (some ([0, 2, 3], [⟨0, false⟩, ⟨1, false⟩, ⟨2, false⟩, ⟨3, false⟩])) ∧
    ((inputs [0, 1, 2, 3]).map Inp.fact).Nodup ∧
    (∀ y ∈ together W 0 0 (inputs [0, 1, 2, 3]), 0 ∉ partsOf W y) ∧
    (∀ y ∈ together W 0 0 (inputs [0, 1, 2, 3]), y ≠ 0 → (W y).inst.isSome →
      ∃ z ∈ together W 0 0 (inputs [0, 1, 2, 3]), z ∈ partsOf W y ∧
      ∀ y' ∈ together W 0 0 (inputs [0, 1, 2, 3]), y' ≠ y → y' ≠ 0 → z ∉ partsOf W y') := by
  decide

/-! ## C84 -/

/-- The instance was made by a composite state with these patterns, `isAx` telling which have no variables, from
some run of inputs. `timely`: patterns without variables come first, and the inputs for each kind of pattern came
in the order of the patterns. -/
def MadeBy (timely : Bool) (s : Inst) : Prop :=
  ∃ (B : Type) (l : Cst.Lang B) (isAx : Nat → Bool) (b : B) (es : List Cst.Event) (o : Cst.Overlay B),
    s.pats ≠ [] ∧ s.pats.Nodup ∧
    o ∈ (Cst.run l (Cst.Ctl.init (s.pats.filter isAx) (s.pats.filter fun p => !isAx p) b) es).made ∧
    s.parts = o.axIns ++ o.nonIns ∧ s.used = o.used ∧
    (timely = true → s.pats = s.pats.filter isAx ++ s.pats.filter (fun p => !isAx p) ∧
      ((o.used.map Prod.snd).filter isAx).Sublist s.pats ∧ ((o.used.map Prod.snd).filter fun p => !isAx p).Sublist s.pats)

/-- Fact `g` is `f`, or a part of it, up to depth `d`. -/
def Inside (W : World) : Nat → Nat → Nat → Prop
  | 0, f, g => g = f
  | d + 1, f, g => g = f ∨ ∃ s, (W f).inst = some s ∧ ∃ x ∈ s.parts, Inside W d x g

/-- What looking for component `c` in `f` is to give: a pattern that `c` was taken for in an instance within reach,
or nothing when none within reach has `c` as a part. -/
def Right (W : World) (d f c : Nat) : Prop :=
  ∃ r, findPart W d f c = some r ∧
    (∀ p, r = some p → ∃ g s, Inside W d f g ∧ (W g).inst = some s ∧ (c, p) ∈ s.used) ∧
    (r = none → ∀ g s, Inside W d f g → (W g).inst = some s → c ∉ s.parts)

/-- C84: in every world whose instances were made by composite states. -/
def C84_full : Prop :=
  ∀ (W : World), (∀ f s, (W f).inst = some s → MadeBy false s) → ∀ d f c, Right W d f c

/-- How inputs are kept by an overlay: those for patterns without variables, and the others. -/
structure Split {B : Type} (isAx : Nat → Bool) (o : Cst.Overlay B) : Prop where
  ax : ∀ p ∈ o.axPats, isAx p = true
  non : ∀ p ∈ o.nonPats, isAx p = false
  axIns : o.axIns = (o.used.filter fun u => isAx u.2).map Prod.fst
  nonIns : o.nonIns = (o.used.filter fun u => !isAx u.2).map Prod.fst

theorem split_offspring {B : Type} {isAx : Nat → Bool} {l : Cst.Lang B} {o : Cst.Overlay B} {b : B} {i p : Nat}
    {ax : Bool} (h : Split isAx o) (hp : isAx p = ax) (remove : Bool) :
    Split isAx (o.offspring l b i p ax remove).1 ∧ Split isAx (o.offspring l b i p ax remove).2 := by
  refine ⟨⟨h.ax, h.non, h.axIns, h.nonIns⟩, ?_⟩
  simp only [Cst.Overlay.offspring, Cst.Overlay.update]
  refine ⟨fun q hq => ?_, fun q hq => ?_, ?_, ?_⟩
  · simp only at hq
    split at hq
    · exact h.ax q (List.mem_of_mem_erase hq)
    · exact h.ax q hq
  · simp only at hq
    split at hq
    · exact h.non q (List.mem_of_mem_erase hq)
    · exact h.non q hq
  · cases ax <;> simp [hp, ← h.axIns]
  · cases ax <;> simp [hp, ← h.nonIns]

theorem split_reduce {B : Type} {isAx : Nat → Bool} (l : Cst.Lang B) (o : Cst.Overlay B) (dead : Nat → Bool) (i : Nat)
    (h : Split isAx o) :
    Split isAx (o.reduce l dead i).this ∧ (∀ x ∈ (o.reduce l dead i).off, Split isAx x) ∧
      (∀ x ∈ (o.reduce l dead i).prod, Split isAx x) := by
  have hN : ∀ P : Cst.Overlay B → Prop, ∀ x ∈ (none : Option (Cst.Overlay B)), P x := fun P x hx => by cases hx
  unfold Cst.Overlay.reduce
  split
  · exact ⟨h, hN _, hN _⟩
  split
  · exact ⟨⟨h.ax, h.non, h.axIns, h.nonIns⟩, hN _, hN _⟩
  · exact ⟨h, hN _, hN _⟩
  split
  · exact ⟨h, hN _, hN _⟩
  rename_i p ax b hb
  have hp : isAx p = ax := by
    have := (Cst.bindPattern_mem l o i p ax b hb).1
    cases ax with
    | true => exact h.ax p this
    | false => exact h.non p this
  split
  · split
    · split
      · rename_i b' _
        have h' : Split isAx { o with hasCode := true, binds := b' } := ⟨h.ax, h.non, h.axIns, h.nonIns⟩
        obtain ⟨h1, h2⟩ := split_offspring (l := l) (b := b') (i := i) h' hp false
        exact ⟨⟨h2.ax, h2.non, h2.axIns, h2.nonIns⟩, fun x hx => (by cases hx; exact h1), fun x hx => (by cases hx; exact h2)⟩
      · exact ⟨⟨h.ax, h.non, h.axIns, h.nonIns⟩, hN _, hN _⟩
    · obtain ⟨h1, h2⟩ := split_offspring (l := l) (b := b) (i := i) h hp false
      exact ⟨⟨h2.ax, h2.non, h2.axIns, h2.nonIns⟩, fun x hx => (by cases hx; exact h1), fun x hx => (by cases hx; exact h2)⟩
  · obtain ⟨h1, h2⟩ := split_offspring (l := l) (b := b) (i := i) h hp true
    exact ⟨h2, fun x hx => (by cases hx; exact h1), hN _⟩

theorem split_loop {B : Type} {isAx : Nat → Bool} (l : Cst.Lang B) (e : Cst.Event) (os : List (Cst.Overlay B))
    (h : ∀ o ∈ os, Split isAx o) :
    (∀ o ∈ (Cst.loop l e os).1, Split isAx o) ∧ (∀ o ∈ (Cst.loop l e os).2.1, Split isAx o) ∧
      (∀ o ∈ (Cst.loop l e os).2.2, Split isAx o) := by
  induction os with
  | nil => simp [Cst.loop]
  | cons o os ih =>
    obtain ⟨i1, i2, i3⟩ := ih fun x hx => h x (by simp [hx])
    obtain ⟨r1, r2, r3⟩ := split_reduce l o e.dead e.inp (h o (by simp))
    simp only [Cst.loop]
    split
    · exact ⟨i1, i2, i3⟩
    split
    · exact ⟨i1, i2, i3⟩
    refine ⟨?_, ?_, ?_⟩
    · intro x hx
      rcases List.mem_cons.1 hx with rfl | hx
      · exact r1
      · exact i1 x hx
    · intro x hx
      rcases List.mem_append.1 hx with hx | hx
      · exact r2 x (by simpa using hx)
      · exact i2 x hx
    · intro x hx
      rcases List.mem_append.1 hx with hx | hx
      · exact r3 x (by simpa using hx)
      · exact i3 x hx

theorem split_run {B : Type} {isAx : Nat → Bool} (l : Cst.Lang B) (es : List Cst.Event) (c : Cst.Ctl B)
    (h : ∀ o ∈ c.overlays, Split isAx o) (hm : ∀ o ∈ c.made, Split isAx o) : ∀ o ∈ (Cst.run l c es).made, Split isAx o := by
  induction es generalizing c with
  | nil => exact hm
  | cons e es ih =>
    obtain ⟨i1, i2, i3⟩ := split_loop l e c.overlays h
    simp only [Cst.run, List.foldl_cons]
    apply ih
    · simp only [Cst.Ctl.step]
      split
      · exact h
      · intro o ho
        rcases List.mem_append.1 ho with ho | ho
        · exact i2 o (by simpa using ho)
        · exact i1 o ho
    · simp only [Cst.Ctl.step]
      split
      · exact hm
      · intro o ho
        rcases List.mem_append.1 ho with ho | ho
        · exact hm o ho
        · exact i3 o ho

/-- As many patterns as parts, so that no reference outside the state is read; and the pattern at the place of a part
is its own when the inputs came in order. -/
theorem madeBy_at {timely : Bool} {s : Inst} (h : MadeBy timely s) :
    s.parts.length = s.pats.length ∧
    (timely = true → ∀ (k : Nat) (c p : Nat), s.parts[k]? = some c → s.pats[k]? = some p → (c, p) ∈ s.used) := by
  obtain ⟨B, l, isAx, b, es, o, -, hnd, ho, hparts, hused, ht⟩ := h
  obtain ⟨-, hw2, hw3, -⟩ := (Cst.run_sound l b _ _ es _ (Cst.init_sound l _ _ b).1 (Cst.init_sound l _ _ b).2).2 o ho
  have hsp := split_run (isAx := isAx) l es _ (fun o' ho' => by
    simp only [Cst.Ctl.init, List.mem_singleton] at ho'
    subst ho'
    exact ⟨fun p hp => (List.mem_filter.1 hp).2, fun p hp => (by simpa using (List.mem_filter.1 hp).2), rfl, rfl⟩)
    (by simp [Cst.Ctl.init]) o ho
  have hpp : (s.pats.filter isAx ++ s.pats.filter fun p => !isAx p).Perm s.pats := List.filter_append_perm _ _
  refine ⟨?_, fun hy k c p hk hkp => ?_⟩
  · rw [hparts, ← hw2.length_eq, ← hpp.length_eq, ← hw3.length_eq]
    simp
  · obtain ⟨he, h1, h2⟩ := ht hy
    have hperm := hw3.trans hpp
    have e1 : (o.used.map Prod.snd).filter isAx = s.pats.filter isAx := by
      have hs := h1.filter isAx
      rw [List.filter_filter] at hs
      simp only [Bool.and_self] at hs
      exact hs.eq_of_length (hperm.filter isAx).length_eq
    have e2 : (o.used.map Prod.snd).filter (fun p => !isAx p) = s.pats.filter fun p => !isAx p := by
      have hs := h2.filter fun p => !isAx p
      rw [List.filter_filter] at hs
      simp only [Bool.and_self] at hs
      exact hs.eq_of_length (hperm.filter fun p => !isAx p).length_eq
    have f1 : s.parts = (o.used.filter (fun u => isAx u.2) ++ o.used.filter fun u => !isAx u.2).map Prod.fst := by
      rw [hparts, hsp.axIns, hsp.nonIns, List.map_append]
    have f2 : s.pats = (o.used.filter (fun u => isAx u.2) ++ o.used.filter fun u => !isAx u.2).map Prod.snd := by
      rw [he, ← e1, ← e2, List.filter_map, List.filter_map, List.map_append]
      rfl
    rw [f1, List.getElem?_map] at hk
    rw [f2, List.getElem?_map] at hkp
    obtain ⟨u, hu, rfl⟩ := Option.map_eq_some_iff.1 hk
    rw [hu] at hkp
    cases hkp
    rw [hused]
    rcases List.mem_append.1 (List.mem_of_getElem? hu) with h | h
    · exact (List.mem_filter.1 h).1
    · exact (List.mem_filter.1 h).1

theorem inside_self (W : World) (d f : Nat) : Inside W d f f := by
  cases d with
  | zero => rfl
  | succ d => exact Or.inl rfl

theorem firstFound_spec (f : Nat → Option (Option Nat)) (l : List Nat) (h : ∀ x ∈ l, (f x).isSome) :
    ∃ r, firstFound f l = some r ∧ (∀ p, r = some p → ∃ x ∈ l, f x = some (some p)) ∧
      (r = none → ∀ x ∈ l, f x = some none) := by
  induction l with
  | nil => exact ⟨none, rfl, fun p hp => (by cases hp), fun _ x hx => (by cases hx)⟩
  | cons x l ih =>
    obtain ⟨r, h1, h2, h3⟩ := ih fun y hy => h y (by simp [hy])
    obtain ⟨v, hv⟩ := Option.isSome_iff_exists.1 (h x (by simp))
    unfold firstFound
    rw [hv, Option.bind_some]
    cases v with
    | some p => exact ⟨some p, rfl, fun q hq => ⟨x, by simp, by rw [hv, hq]⟩, fun h => (by cases h)⟩
    | none =>
      refine ⟨r, h1, fun p hp => ?_, fun hr y hy => ?_⟩
      · obtain ⟨y, hy, e⟩ := h2 p hp
        exact ⟨y, by simp [hy], e⟩
      · rcases List.mem_cons.1 hy with rfl | hy
        · exact hv
        · exact h3 hr y hy

/-- C84 in part: when the inputs came in the order of the patterns. Missing: inputs that came in another order, for
which the pattern of another component is found. -/
theorem C84_right_pattern_partial (W : World) (hW : ∀ f s, (W f).inst = some s → MadeBy true s) (d f c : Nat) :
    Right W d f c := by
  have key : ∀ f s k, (W f).inst = some s → s.parts.findIdx? (· == c) = some k →
      ∃ p, s.pats[k]? = some p ∧ (c, p) ∈ s.used := by
    intro f s k hs hk
    obtain ⟨h1, h2⟩ := madeBy_at (hW f s hs)
    obtain ⟨hlt, hkc, -⟩ := List.findIdx?_eq_some_iff_getElem.1 hk
    have hlt' : k < s.pats.length := h1 ▸ hlt
    refine ⟨s.pats[k], List.getElem?_eq_getElem hlt', h2 rfl k c _ ?_ (List.getElem?_eq_getElem hlt')⟩
    rw [List.getElem?_eq_getElem hlt]
    simpa using hkc
  have miss : ∀ (s : Inst), s.parts.findIdx? (· == c) = none → c ∉ s.parts := by
    intro s h hc
    have := List.findIdx?_eq_none_iff.1 h c hc
    simp at this
  induction d generalizing f with
  | zero =>
    unfold Right findPart
    cases hs : (W f).inst with
    | none =>
      refine ⟨none, rfl, fun p hp => (by cases hp), fun _ g s hg hgs => ?_⟩
      cases (show g = f from hg)
      rw [hs] at hgs
      cases hgs
    | some s =>
      simp only
      cases hk : s.parts.findIdx? (· == c) with
      | some k =>
        obtain ⟨p, hp, hu⟩ := key f s k hs hk
        exact ⟨some p, by simp [hp], fun q hq => ⟨f, s, rfl, hs, by cases hq; exact hu⟩, fun h => (by cases h)⟩
      | none =>
        refine ⟨none, rfl, fun p hp => (by cases hp), fun _ g s' hg hgs => ?_⟩
        cases (show g = f from hg)
        rw [hs] at hgs
        cases hgs
        exact miss s hk
  | succ d ih =>
    unfold Right findPart
    cases hs : (W f).inst with
    | none =>
      refine ⟨none, rfl, fun p hp => (by cases hp), fun _ g s hg hgs => ?_⟩
      rcases hg with rfl | ⟨s', hs', -⟩
      · rw [hs] at hgs; cases hgs
      · rw [hs] at hs'; cases hs'
    | some s =>
      simp only
      cases hk : s.parts.findIdx? (· == c) with
      | some k =>
        obtain ⟨p, hp, hu⟩ := key f s k hs hk
        exact ⟨some p, by simp [hp], fun q hq => ⟨f, s, Or.inl rfl, hs, by cases hq; exact hu⟩, fun h => (by cases h)⟩
      | none =>
        obtain ⟨r, h1, h2, h3⟩ := firstFound_spec (fun x => findPart W d x c) s.parts fun x _ => by
          obtain ⟨r, hr, -⟩ := ih x
          simp [hr]
        refine ⟨r, h1, fun p hp => ?_, fun hr g s' hg hgs => ?_⟩
        · obtain ⟨x, hx, e⟩ := h2 p hp
          obtain ⟨r', hr', hgot, -⟩ := ih x
          rw [hr'] at e
          obtain ⟨g, s', hg, hgs, hu⟩ := hgot p (by simpa using e)
          exact ⟨g, s', Or.inr ⟨s, hs, x, hx, hg⟩, hgs, hu⟩
        · rcases hg with rfl | ⟨s'', hs'', x, hx, hg⟩
          · rw [hs] at hgs
            cases hgs
            exact miss s hk
          · rw [hs] at hs''
            cases hs''
            obtain ⟨r', hr', -, hnone⟩ := ih x
            have := h3 hr x hx
            rw [hr'] at this
            exact hnone (by simpa using this) g s' hg hgs

/-- Nothing outside an array is read, whatever the order of the inputs, and nothing is missed. -/
theorem C84_found (W : World) (hW : ∀ f s, (W f).inst = some s → MadeBy false s) (f c : Nat) (s : Inst)
    (hs : (W f).inst = some s) (d : Nat) : c ∈ s.parts → ∃ p ∈ s.pats, findPart W d f c = some (some p) := by
  intro hc
  obtain ⟨k, hk⟩ : ∃ k, s.parts.findIdx? (· == c) = some k := by
    cases h : s.parts.findIdx? (· == c) with
    | some k => exact ⟨k, rfl⟩
    | none =>
      have := List.findIdx?_eq_none_iff.1 h c hc
      simp at this
  obtain ⟨hlt, -⟩ := List.findIdx?_eq_some_iff_getElem.1 hk
  have hlt' : k < s.pats.length := (madeBy_at (hW f s hs)).1 ▸ hlt
  refine ⟨s.pats[k], List.getElem_mem hlt', ?_⟩
  cases d <;> simp [findPart, hs, hk, List.getElem?_eq_getElem hlt']

/-- Input `i` fits pattern `i - 9` only. -/
def only : Cst.Lang Unit := ⟨fun _ _ i p => if i = p + 9 then some () else none, fun _ => some (), fun _ => 0⟩

/-- C84 for a list of facts searched in turn: what is found is right, and something is found, for each fact when all
are wanted, if there is something within reach. -/
theorem C84_all_partial (W : World) (hW : ∀ f s, (W f).inst = some s → MadeBy true s) (c : Nat) (multiple : Bool)
    (fs : List Nat) : ∃ r, findAll W c multiple fs = some r ∧
      (∀ f p, (f, p) ∈ r → f ∈ fs ∧ ∃ g s, Inside W 3 f g ∧ (W g).inst = some s ∧ (c, p) ∈ s.used) ∧
      (∀ f ∈ fs, ∀ g s, Inside W 3 f g → (W g).inst = some s → c ∈ s.parts →
        r ≠ [] ∧ (multiple = true → ∃ p, (f, p) ∈ r)) := by
  induction fs with
  | nil => exact ⟨[], rfl, fun f p h => (by cases h), fun f hf => (by cases hf)⟩
  | cons f fs ih =>
    obtain ⟨r, hr, h1, h2⟩ := ih
    obtain ⟨v, hv, hgot, hnone⟩ := C84_right_pattern_partial W hW 3 f c
    unfold findAll
    rw [hv, Option.bind_some]
    cases v with
    | none =>
      refine ⟨r, hr, fun f' p h => ⟨List.mem_cons_of_mem _ (h1 f' p h).1, (h1 f' p h).2⟩, fun f' hf' g s hg hs hc => ?_⟩
      rcases List.mem_cons.1 hf' with rfl | hf'
      · exact absurd hc (hnone rfl g s hg hs)
      · exact h2 f' hf' g s hg hs hc
    | some p =>
      cases multiple with
      | false =>
        refine ⟨[(f, p)], rfl, fun f' q h => ?_, fun _ _ _ _ _ _ _ => ⟨by simp, fun h => (by cases h)⟩⟩
        cases List.mem_singleton.1 h
        exact ⟨by simp, hgot p rfl⟩
      | true =>
        refine ⟨(f, p) :: r, by simp [hr], fun f' q h => ?_, fun f' hf' g s hg hs hc => ⟨by simp, fun _ => ?_⟩⟩
        · rcases List.mem_cons.1 h with h | h
          · cases h
            exact ⟨by simp, hgot p rfl⟩
          · exact ⟨List.mem_cons_of_mem _ (h1 f' q h).1, (h1 f' q h).2⟩
        · rcases List.mem_cons.1 hf' with rfl | hf'
          · exact ⟨p, by simp⟩
          · obtain ⟨q, hq⟩ := (h2 f' hf' g s hg hs hc).2 rfl
            exact ⟨q, List.mem_cons_of_mem _ hq⟩

/-- The instance made of inputs 11 for pattern 2, then 10 for pattern 1. -/
def late : Inst := ⟨[11, 10], [1, 2], [(11, 2), (10, 1)]⟩

theorem late_made : MadeBy false late := by
  refine ⟨Unit, only, fun _ => false, (), [Cst.ev 11, Cst.ev 10],
    ((Cst.run only (Cst.Ctl.init [] [1, 2] ()) [Cst.ev 11, Cst.ev 10]).made.head (by decide)), by decide, by decide,
    List.head_mem _, by decide, by decide, fun h => (by cases h)⟩

/-- Inputs that come in the other order than the patterns: for each of them the pattern of the other is found. -/
theorem C84_other_order_violated :
    ¬ C84_full ∧
    findPart (fun f => ⟨0, 0, if f = 9 then some late else none⟩) 3 9 11 = some (some 1) ∧
    findPart (fun f => ⟨0, 0, if f = 9 then some late else none⟩) 3 9 10 = some (some 2) := by
  refine ⟨fun h => ?_, by decide, by decide⟩
  obtain ⟨r, hr, hu, -⟩ := h (fun f => ⟨0, 0, if f = 9 then some late else none⟩) (fun f s hs => by
    simp only at hs
    split at hs
    · cases hs; exact late_made
    · cases hs) 0 9 11
  have : findPart (fun f => ⟨0, 0, if f = 9 then some late else none⟩) 0 9 11 = some (some 1) := by decide
  rw [this] at hr
  cases hr
  obtain ⟨g, s, hg, hs, hus⟩ := hu 1 rfl
  cases (show g = 9 from hg)
  simp only [if_pos] at hs
  cases hs
  revert hus
  decide

/-- Inputs in the order of the patterns, as a part of another instance. -/
def early : Inst := ⟨[10, 11], [1, 2], [(10, 1), (11, 2)]⟩
def outer : Inst := ⟨[9], [5], [(9, 5)]⟩

theorem C84_nonvacuous :
    MadeBy true early ∧
    findPart (fun f => ⟨0, 0, if f = 9 then some early else if f = 8 then some outer else none⟩) 3 8 11 =
      some (some 2) ∧
    findPart (fun f => ⟨0, 0, if f = 9 then some early else if f = 8 then some outer else none⟩) 0 8 11 =
      some none := by
  refine ⟨⟨Unit, only, fun _ => false, (), [Cst.ev 10, Cst.ev 11],
    ((Cst.run only (Cst.Ctl.init [] [1, 2] ()) [Cst.ev 10, Cst.ev 11]).made.head (by decide)), by decide, by decide,
    List.head_mem _, by decide, by decide, fun _ => ⟨by decide, by decide, by decide⟩⟩, by decide, by decide⟩

end Verif.Extract
