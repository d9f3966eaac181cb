import Verif.Abstract.Spec
import Verif.Unify.Walk
/-! Variables for atoms, objects and structures. -/
namespace Verif.Abstract
open Verif.Atom Verif.Words Verif.Values
open Verif.BindMap (BMap Slot)
open Verif.Match (Obj Heap Opc Tol isWild isVar isIPtr isRPtr Named SameAtom)
open Verif.Unify (Leaf Place Ok Ground Pair Fits GoodSlot Good)

theorem get_prefix {α : Type} {h h' : List α} (hp : h <+: h') {p : Nat} {o : α} (ho : h[p]? = some o) :
    h'[p]? = some o := by
  obtain ⟨t, rfl⟩ := hp
  have : p < h.length := (List.getElem?_eq_some_iff.1 ho).1
  rw [List.getElem?_append_left this]
  exact ho

theorem vl_var (i : Nat) : isVar (vl i) = true := by
  simp only [isVar, beq_iff_eq]
  exact Instance.vp_desc _

theorem vl_ix {i : Nat} (h : i < 4096) : (asIndex (vl i)).toNat = i := by
  rw [vl, vlPointer, asIndex_toNat, ptr_toNat, BitVec.toNat_ofNat]
  omega

theorem firstVar_spec {g : Slot → Option Bool} : ∀ (l : List Slot) i, (∀ s, s ∈ l → (g s).isSome) →
    (∃ j s, firstVar g l i = some (some (i + j)) ∧ l[j]? = some s ∧ g s = some true) ∨
    (firstVar g l i = some none ∧ ∀ s, s ∈ l → g s = some false) := by
  intro l
  induction l with
  | nil => intro i _; exact Or.inr ⟨rfl, by simp⟩
  | cons s l ih =>
    intro i hs
    obtain ⟨b, hb⟩ := Option.isSome_iff_exists.1 (hs s (by simp))
    cases b with
    | true => exact Or.inl ⟨0, s, by simp [firstVar, hb], rfl, hb⟩
    | false =>
      rcases ih (i + 1) (fun s h => hs s (by simp [h])) with ⟨j, s', h1, h2, h3⟩ | ⟨h1, h2⟩
      · exact Or.inl ⟨j + 1, s', by simp [firstVar, hb, h1]; omega, by simpa using h2, h3⟩
      · refine Or.inr ⟨by simp [firstVar, hb, h1], fun s' h => ?_⟩
        rcases List.mem_cons.1 h with rfl | h
        · exact hb
        · exact h2 s' h

/-- Steps left to come back to `first`. -/
def way (n first i : Nat) : Nat := if i < first then first - i else first + n - i

theorem roundVar_spec {g : Slot → Option Bool} {l : List Slot} {first : Nat} (hf : first < l.length)
    (hs : ∀ s, s ∈ l → (g s).isSome) : ∀ k i, i < l.length → way l.length first i ≤ k →
    (∃ j s, roundVar g l first k i = some (some j) ∧ l[j]? = some s ∧ g s = some true) ∨
    roundVar g l first k i = some none := by
  intro k
  induction k with
  | zero => intro i hi hw; unfold way at hw; split at hw <;> omega
  | succ k ih =>
    intro i hi hw
    have hl := List.getElem?_eq_getElem hi
    obtain ⟨b, hb⟩ := Option.isSome_iff_exists.1 (hs l[i] (List.getElem_mem hi))
    cases b with
    | true => exact Or.inl ⟨i, l[i], by simp [roundVar, hl, hb], hl, hb⟩
    | false =>
      simp only [roundVar, hl, hb, Option.bind_some, Bool.false_eq_true, if_false]
      by_cases hj : (if i + 1 ≥ l.length then 0 else i + 1) = first
      · rw [if_pos hj]; exact Or.inr rfl
      · rw [if_neg hj]
        by_cases hn : i + 1 ≥ l.length
        · simp only [if_pos hn] at hj ⊢
          refine ih 0 (by omega) ?_
          unfold way at hw ⊢
          split at hw <;> split <;> omega
        · simp only [if_neg hn] at hj ⊢
          refine ih (i + 1) (by omega) ?_
          unfold way at hw ⊢
          split at hw <;> split <;> omega

theorem same_comm {t : Tol} {a b : Word} (h : SameAtom t a b) : SameAtom t b a := by
  rcases h with rfl | ⟨h1, h2, h3⟩
  · exact Or.inl rfl
  · exact Or.inr ⟨h2, h1, by rw [Match.equal_comm]; exact h3⟩

/-- What a search for a variable gives: `v` is a variable of `m'`, which has the value. -/
structure Found (m m' : BMap) (v : Word) (x : BindMap.Val) (Q : BindMap.Val → Prop) : Prop where
  slots : m.slots <+: m'.slots
  var : ∃ i, v = vl i ∧ ∃ y, m'.slots[i]? = some (.bound y) ∧ Q y
  new : m'.slots = m.slots ∨ (m'.slots = m.slots ++ [.bound x])

theorem varOf_new {m : BMap} {x : BindMap.Val} {Q : BindMap.Val → Prop} (hq : Q x) :
    Found m (varOf m x none).1 (varOf m x none).2 x Q where
  slots := ⟨_, rfl⟩
  var := ⟨_, rfl, x, by simp [varOf, BindMap.pushBound], hq⟩
  new := Or.inr rfl

theorem varOf_old {m : BMap} {x y : BindMap.Val} {Q : BindMap.Val → Prop} {i : Nat}
    (hs : m.slots[i]? = some (.bound y)) (hq : Q y) : Found m m (vl i) x Q where
  slots := List.prefix_rfl
  var := ⟨i, rfl, y, hs, hq⟩
  new := Or.inl rfl

/-- No null entries. -/
def Full (m : BMap) : Prop := ∀ s, s ∈ m.slots → s ≠ .null

theorem full_of_good {h : Heap} {oc : Opc} {m : BMap} (hm : Good h oc m) : Full m := by
  intro s hs hn
  obtain ⟨i, hi⟩ := List.getElem?_of_mem hs
  have := hm i s hi
  rw [hn] at this
  exact this

theorem containsAtom_some {t : Tol} {a : Word} {s : Slot} (h : s ≠ .null) : (containsAtom t a s).isSome := by
  cases s with
  | null => exact absurd rfl h
  | unbound => rfl
  | bound v => cases v <;> rfl

theorem containsObj_some {r : Nat} {s : Slot} (h : s ≠ .null) : (containsObj r s).isSome := by
  cases s with
  | null => exact absurd rfl h
  | unbound => rfl
  | bound v => cases v <;> rfl

theorem atomVariable_spec {t : Tol} {m : BMap} (hm : Full m) (a : Word) :
    ∃ m' v, atomVariable t m a = some (m', v) ∧
      Found m m' v (.atom a) (fun y => ∃ x, y = .atom x ∧ SameAtom t a x) ∧ (Distinct t m → Distinct t m') := by
  rcases firstVar_spec (g := containsAtom t a) m.slots 0 (fun s h => containsAtom_some (hm s h)) with
    ⟨j, s, h1, h2, h3⟩ | ⟨h1, h2⟩
  · rw [Nat.zero_add] at h1
    refine ⟨m, vl j, by simp [atomVariable, h1, varOf], ?_, id⟩
    cases s with
    | null => exact absurd h3 (by simp [containsAtom])
    | unbound => exact absurd h3 (by simp [containsAtom])
    | bound y =>
      cases y with
      | atom x =>
        have : Match.matchAtom t x a = true := by simpa [containsAtom] using h3
        exact varOf_old h2 ⟨x, rfl, same_comm (Unify.sameAtom_iff.1 this)⟩
      | struct c => exact absurd h3 (by simp [containsAtom])
      | obj r => exact absurd h3 (by simp [containsAtom])
  · refine ⟨_, _, by simp only [atomVariable, h1, Option.map_some], varOf_new ⟨a, rfl, Or.inl rfl⟩, fun hd => ?_⟩
    have hno : ∀ (i : Nat) x, m.slots[i]? = some (.bound (.atom x)) → ¬ SameAtom t x a := by
      intro i x hi hs
      have := h2 _ (List.mem_of_getElem? hi)
      rw [containsAtom, Unify.sameAtom_iff.2 hs] at this
      cases this
    have hget : ∀ (i : Nat) y, (m.slots ++ [Slot.bound (.atom a)])[i]? = some y →
        m.slots[i]? = some y ∨ (i = m.slots.length ∧ y = .bound (.atom a)) := by
      intro i y hi
      rcases Nat.lt_or_ge i m.slots.length with h | h
      · rw [List.getElem?_append_left h] at hi; exact Or.inl hi
      · rw [List.getElem?_append_right h] at hi
        have h0 : i - m.slots.length = 0 := by
          have := (List.getElem?_eq_some_iff.1 hi).1
          simp at this; omega
        rw [h0] at hi
        exact Or.inr ⟨by omega, by simpa using hi.symm⟩
    constructor
    · intro i j r hi hj
      rcases hget i _ hi with hi | ⟨_, hi⟩ <;> rcases hget j _ hj with hj | ⟨_, hj⟩
      · exact hd.obj i j r hi hj
      · cases hj
      · cases hi
      · cases hi
    · intro i j x y hi hj hxy
      rcases hget i _ hi with hi | ⟨ei, hi⟩ <;> rcases hget j _ hj with hj | ⟨ej, hj⟩
      · exact hd.atom i j x y hi hj hxy
      · cases hj; exact absurd hxy (hno i x hi)
      · cases hi; exact absurd (same_comm hxy) (hno j y hj)
      · omega

theorem objectVariable_spec {t : Tol} {m : BMap} (hm : Full m) (r : Nat) :
    ∃ m' v, objectVariable m r = some (m', v) ∧
      Found m m' v (.obj r) (fun y => y = .obj r) ∧ (Distinct t m → Distinct t m') := by
  rcases firstVar_spec (g := containsObj r) m.slots 0 (fun s h => containsObj_some (hm s h)) with
    ⟨j, s, h1, h2, h3⟩ | ⟨h1, h2⟩
  · rw [Nat.zero_add] at h1
    refine ⟨m, vl j, by simp [objectVariable, h1, varOf], ?_, id⟩
    cases s with
    | null => exact absurd h3 (by simp [containsObj])
    | unbound => exact absurd h3 (by simp [containsObj])
    | bound y =>
      cases y with
      | atom x => exact absurd h3 (by simp [containsObj])
      | struct c => exact absurd h3 (by simp [containsObj])
      | obj x =>
        have : x = r := by simpa [containsObj] using h3
        exact varOf_old h2 (by rw [this])
  · refine ⟨_, _, by simp only [objectVariable, h1, Option.map_some], varOf_new rfl, fun hd => ?_⟩
    have hno : ∀ (i : Nat), m.slots[i]? ≠ some (.bound (.obj r)) := by
      intro i hi
      have := h2 _ (List.mem_of_getElem? hi)
      simp [containsObj] at this
    have hget : ∀ (i : Nat) y, (m.slots ++ [Slot.bound (.obj r)])[i]? = some y →
        m.slots[i]? = some y ∨ (i = m.slots.length ∧ y = .bound (.obj r)) := by
      intro i y hi
      rcases Nat.lt_or_ge i m.slots.length with h | h
      · rw [List.getElem?_append_left h] at hi; exact Or.inl hi
      · rw [List.getElem?_append_right h] at hi
        have h0 : i - m.slots.length = 0 := by
          have := (List.getElem?_eq_some_iff.1 hi).1
          simp at this; omega
        rw [h0] at hi
        exact Or.inr ⟨by omega, by simpa using hi.symm⟩
    constructor
    · intro i j x hi hj
      rcases hget i _ hi with hi | ⟨ei, hi⟩ <;> rcases hget j _ hj with hj | ⟨ej, hj⟩
      · exact hd.obj i j x hi hj
      · cases hj; exact absurd hi (hno i)
      · cases hi; exact absurd hj (hno j)
      · omega
    · intro i j x y hi hj hxy
      rcases hget i _ hi with hi | ⟨_, hi⟩ <;> rcases hget j _ hj with hj | ⟨_, hj⟩
      · exact hd.atom i j x y hi hj hxy
      · cases hj
      · cases hi
      · cases hi

/-! ## Structures -/

/-- A structure without pointers. -/
structure FlatAt (o : Obj) (s : Nat) (w : Word) : Prop where
  head : o.code[s]? = some w
  ptr : ¬ isIPtr w
  len : s + count w < o.code.length
  time : getDescriptor w = 0xC7 → 2 ≤ count w
  leaf : ∀ k a, 1 ≤ k → k ≤ count w → o.code[s + k]? = some a → Leaf a

/-- Its words. -/
def words (c : Code) (s n : Nat) : Code := (c.drop s).take n

theorem words_get {c : Code} {s n k : Nat} (h : k < n) : (words c s n)[k]? = c[s + k]? := by
  simp [words, List.getElem?_take, h]

theorem words_len {c : Code} {s n : Nat} (h : s + n ≤ c.length) : (words c s n).length = n := by
  simp [words]; omega

theorem put_end (d : Code) (w : Word) : put d d.length w = d ++ [w] := by
  apply List.ext_getElem?
  intro q
  rcases Nat.lt_trichotomy q d.length with h | h | h
  · rw [put_get d _ _ _ (by omega) h, List.getElem?_append_left h]
  · subst h; rw [put_get_self]; simp
  · rw [List.getElem?_eq_none (by simp [put, grow]; omega), List.getElem?_eq_none (by simp; omega)]

theorem copyMembers_flat {rec : Code → Nat → Nat → Option (Code × Nat)} {src : Code} {s : Nat} : ∀ k i d e,
    d.length = i → s + i + k ≤ src.length → (∀ q a, i ≤ q → q < i + k → src[s + q]? = some a → isPtr a = false) →
    copyMembers rec src s 0 k i d e = some (d ++ words src (s + i) k, e) := by
  intro k
  induction k with
  | zero => intro i d e _ _ _; simp [copyMembers, words]
  | succ k ih =>
    intro i d e hd hl hp
    have ha := List.getElem?_eq_getElem (show s + i < src.length by omega)
    have hpa := hp i _ (Nat.le_refl _) (by omega) ha
    simp only [copyMembers, ha, hpa, Bool.false_eq_true, if_false]
    have hput : put d (0 + i) src[s + i] = d ++ [src[s + i]] := by
      have := put_end d src[s + i]
      rw [hd] at this
      rw [Nat.zero_add]; exact this
    rw [hput, ih (i + 1) _ e (by simp; omega) (by omega)
      (fun q a h1 h2 h3 => hp q a (by omega) (by omega) h3)]
    congr 2
    rw [List.append_assoc]
    congr 1
    unfold words
    rw [List.drop_eq_getElem_cons (show s + i < src.length by omega)]
    simp [Nat.add_assoc]

theorem structureValue_flat {o : Obj} {s : Nat} {w : Word} (hf : FlatAt o s w) (f : Nat) :
    structureValue (f + 1) o.code s = some (words o.code s (count w + 1)) := by
  simp only [structureValue, copyStructure, hf.head]
  rw [copyMembers_flat (count w + 1) 0 [] _ rfl (by have := hf.len; omega)]
  · simp
  · intro q a _ hq ha
    rcases Nat.eq_zero_or_pos q with rfl | h
    · rw [Nat.add_zero, hf.head] at ha
      cases ha
      simpa [isPtr, isIPtr] using hf.ptr
    · have := (hf.leaf q a h (by omega) ha).2.2.1
      simpa [isPtr, isIPtr] using this

theorem leaf_flat {c : Code} {i : Nat} {w : Word} (hh : c[i]? = some w)
    (hl : ∀ k a, 1 ≤ k → k ≤ count w → c[i + k]? = some a → Leaf a) : NoRefs c i := by
  intro p o
  match p with
  | [] => simp [see, hh]
  | k :: ks =>
    simp only [see, hh]
    by_cases hk : k = 0 ∨ count w < k
    · rw [if_pos hk]; simp
    · rw [if_neg hk]
      cases ha : c[i + k]? with
      | none => simp
      | some a =>
        have := hl k a (by omega) (by omega) ha
        obtain ⟨-, -, h3, h4⟩ := this
        have h3' : getDescriptor a ≠ 0x84 := fun e => h3 (Unify.iptr_iff.2 e)
        have h4' : getDescriptor a ≠ 0x85 := fun e => h4 (Unify.rptr_iff.2 e)
        cases raw w with
        | true => by_cases hn : ks = [] <;> simp [hn]
        | false =>
          simp only [Bool.false_eq_true, if_false]
          rw [if_neg h3', if_neg h4']
          by_cases hn : ks = [] <;> simp [hn]

/-- Entries for structures without pointers. -/
theorem good_words {h : Heap} {oc : Opc} {o : Obj} {s : Nat} {w : Word} (hf : FlatAt o s w) (v : Nat) :
    GoodSlot h oc v (.bound (.struct (words o.code s (count w + 1)))) := by
  have hl := words_len (c := o.code) (s := s) (n := count w + 1) (by have := hf.len; omega)
  have hh : (words o.code s (count w + 1))[0]? = some w := by rw [words_get (by omega)]; exact hf.head
  have hlf : ∀ k a, 1 ≤ k → k ≤ count w → (words o.code s (count w + 1))[0 + k]? = some a → Leaf a := by
    intro k a k1 k2 ha
    rw [Nat.zero_add, words_get (by omega)] at ha
    exact hf.leaf k a k1 k2 ha
  refine ⟨?_, leaf_flat hh hlf⟩
  cases hr : raw w with
  | true => exact Ok.data hh hr (by simp only [hl]; omega) hf.time hlf
  | false =>
    exact Ok.str hh hr hf.ptr (by simp only [hl]; omega) trivial fun k a k1 k2 ha =>
      Ok.word (hlf k a k1 k2 ha).2.2.1 (hlf k a k1 k2 ha).2.2.2 (hlf k a k1 k2 ha)

theorem sameWords_spec {t : Tol} {c src : Code} {s : Nat} : ∀ k i,
    (∀ q, i ≤ q → q < i + k → (c[q]?).isSome) →
    ((∀ q, i ≤ q → q < i + k → (src[s + q]?).isSome) ∨
      ∃ q a b, i ≤ q ∧ q < i + k ∧ c[q]? = some a ∧ src[s + q]? = some b ∧ Match.matchAtom t a b = false ∧
        ∀ r, i ≤ r → r ≤ q → (src[s + r]?).isSome) →
    ∃ b, sameWords t c src s k i = some b ∧ (b = true → ∀ q a b, i ≤ q → q < i + k → c[q]? = some a →
      src[s + q]? = some b → SameAtom t b a) := by
  intro k
  induction k with
  | zero => intro i _ _; exact ⟨true, rfl, fun _ q _ _ h1 h2 => by omega⟩
  | succ k ih =>
    intro i hc hs
    obtain ⟨a, ha⟩ := Option.isSome_iff_exists.1 (hc i (Nat.le_refl _) (by omega))
    have hb' : (src[s + i]?).isSome := by
      rcases hs with hs | ⟨q, _, _, h1, h2, _, _, _, h3⟩
      · exact hs i (Nat.le_refl _) (by omega)
      · exact h3 i (Nat.le_refl _) h1
    obtain ⟨b, hb⟩ := Option.isSome_iff_exists.1 hb'
    simp only [sameWords, ha, hb]
    by_cases hm : Match.matchAtom t a b = true
    · rw [if_pos hm]
      have hs' : (∀ q, i + 1 ≤ q → q < i + 1 + k → (src[s + q]?).isSome) ∨
          ∃ q a b, i + 1 ≤ q ∧ q < i + 1 + k ∧ c[q]? = some a ∧ src[s + q]? = some b ∧
            Match.matchAtom t a b = false ∧ ∀ r, i + 1 ≤ r → r ≤ q → (src[s + r]?).isSome := by
        rcases hs with hs | ⟨q, x, y, h1, h2, h3, h4, h5, h6⟩
        · exact Or.inl fun q h1 h2 => hs q (by omega) (by omega)
        · refine Or.inr ⟨q, x, y, ?_, by omega, h3, h4, h5, fun r h7 h8 => h6 r (by omega) h8⟩
          rcases Nat.lt_or_ge i q with h | h
          · exact h
          · obtain rfl : q = i := by omega
            rw [ha] at h3; rw [hb] at h4
            cases h3; cases h4
            rw [h5] at hm; cases hm
      obtain ⟨r, hr, hr'⟩ := ih (i + 1) (fun q h1 h2 => hc q (by omega) (by omega)) hs'
      refine ⟨r, hr, fun e q x y h1 h2 hx hy => ?_⟩
      rcases Nat.lt_or_ge i q with h | h
      · exact hr' e q x y h (by omega) hx hy
      · obtain rfl : q = i := by omega
        rw [ha] at hx; rw [hb] at hy
        cases hx; cases hy
        exact same_comm (Unify.sameAtom_iff.1 hm)
    · rw [if_neg hm]
      exact ⟨false, rfl, fun h => by cases h⟩

theorem getInt64_some {c : Code} {i : Nat} (h : i + 1 < c.length) : ∃ x, getInt64 c i = some x := by
  have h1 := List.getElem?_eq_getElem (show i < c.length by omega)
  have h2 := List.getElem?_eq_getElem h
  exact ⟨_, by simp only [getInt64, Words.get, h1, h2]; rfl⟩

/-- Whether an entry is the structure. -/
theorem containsStr_spec {h : Heap} {oc : Opc} {t : Tol} {m : BMap} (hm : Good h oc m) (ht : Tight m) {o : Obj}
    {i : Nat} {w : Word} (hf : FlatAt o i w) {v : Nat} {s : Slot} (hs : m.slots[v]? = some s) :
    ∃ b, containsStr t o.code i s = some b ∧
      (b = true → ∃ c, s = .bound (.struct c) ∧ ∀ h oc M, Fits h oc t (SameAtom t) M (.str o i ⟨c, [], []⟩ 0)) := by
  have hg := hm v s hs
  cases s with
  | null => exact absurd hg (by simp [GoodSlot])
  | unbound => exact ⟨false, rfl, fun h => by cases h⟩
  | bound x =>
    cases x with
    | atom => exact ⟨false, rfl, fun h => by cases h⟩
    | obj => exact ⟨false, rfl, fun h => by cases h⟩
    | struct c =>
      obtain ⟨hg, hn⟩ := hg
      -- the first word, the members and where they are no pointers
      have key : ∃ w', c[0]? = some w' ∧ count w' < c.length ∧ (getDescriptor w' = 0xC7 → 2 ≤ count w') ∧
          ∀ k a, 1 ≤ k → k ≤ count w' → c[k]? = some a → Leaf a ∨ isIPtr a = true ∨ isRPtr a = true := by
        unfold Ground at hg
        cases hg with
        | @data _ _ w' h1 h2 h3 h4 h5 =>
          refine ⟨w', h1, by simpa using h3, h4, fun k a k1 k2 ha => Or.inl (h5 k a k1 k2 ?_)⟩
          rw [Nat.zero_add]; exact ha
        | @str _ _ w' h1 h2 h3 h4 h5 h6 =>
          refine ⟨w', h1, by simpa using h4, fun e => ?_, fun k a k1 k2 ha => ?_⟩
          · simp [raw, e] at h2
          · have := h6 k a k1 k2 (by rw [Nat.zero_add]; exact ha)
            cases this with
            | word _ _ h => exact Or.inl h
            | sub h _ => exact Or.inr (Or.inl h)
            | ref h _ _ => exact Or.inr (Or.inr h)
      obtain ⟨w', hc, hlen, htime, hmem⟩ := key
      simp only [containsStr, hc, hf.head]
      by_cases hw : w' = w
      · subst hw
        rw [if_neg (by simp)]
        have hfl := hf.len
        by_cases hd : getDescriptor w' = 0xC7
        · rw [if_pos hd]
          have h2 := htime hd
          obtain ⟨x, hx⟩ := getInt64_some (c := c) (i := 1) (by omega)
          obtain ⟨y, hy⟩ := getInt64_some (c := o.code) (i := i + 1) (by omega)
          rw [hx, hy]
          refine ⟨_, rfl, fun hb => ⟨c, rfl, fun h oc M => ?_⟩⟩
          rw [Match.synchronous_comm] at hb
          exact Fits.time hf.head hc hd hy hx (by simpa [Match.synchronous] using hb)
        · rw [if_neg hd]
          have hex : ∃ b, sameWords t c o.code i (c.length - 1) 1 = some b ∧ (b = true →
              ∀ q a b, 1 ≤ q → q < 1 + (c.length - 1) → c[q]? = some a → o.code[i + q]? = some b →
                SameAtom t b a) := by
            refine sameWords_spec _ _ (fun q _ h2 => by rw [List.getElem?_eq_getElem (by omega)]; rfl) ?_
            by_cases hall : ∀ k a, 1 ≤ k → k ≤ count w' → c[k]? = some a → Leaf a
            · have := ht v c w' hs hc hall
              exact Or.inl fun q h1 h2 => by rw [List.getElem?_eq_getElem (by omega)]; rfl
            · simp only [Classical.not_forall] at hall
              obtain ⟨k, a, k1, k2, ha, hna⟩ := hall
              have hb := List.getElem?_eq_getElem (show i + k < o.code.length by omega)
              refine Or.inr ⟨k, a, _, k1, by omega, ha, hb, ?_, fun r _ hr => by
                rw [List.getElem?_eq_getElem (by omega)]; rfl⟩
              have hlf := hf.leaf k _ k1 k2 hb
              have hp := (hmem k a k1 k2 ha).resolve_left hna
              refine Unify.not_same_ptr hp fun e => ?_
              rw [e] at hp
              rcases hp with hp | hp
              · exact hlf.2.2.1 hp
              · exact hlf.2.2.2 hp
          obtain ⟨b, hb, hb'⟩ := hex
          refine ⟨b, hb, fun e => ⟨c, rfl, fun h oc M => ?_⟩⟩
          have hsame := hb' e
          cases hr : raw w' with
          | true =>
            refine Fits.data hf.head hc hr hd fun k k1 k2 => ?_
            have h1 := List.getElem?_eq_getElem (show i + k < o.code.length by omega)
            have h2 := List.getElem?_eq_getElem (show k < c.length by omega)
            exact ⟨_, _, h1, by rw [Nat.zero_add]; exact h2, hsame k _ _ k1 (by omega) h2 h1⟩
          | false =>
            refine Fits.str hf.head hc hr (fun k k1 k2 => ?_) fun k a b k1 k2 ha hb => ?_
            · exact ⟨_, _, List.getElem?_eq_getElem (show i + k < o.code.length by omega), by
                rw [Nat.zero_add]; exact List.getElem?_eq_getElem (show k < c.length by omega)⟩
            · rw [Nat.zero_add] at hb
              have hs := hsame k b a k1 (by have := (List.getElem?_eq_some_iff.1 hb).1; omega) hb ha
              have hla := hf.leaf k a k1 k2 ha
              have hlb : Leaf b := by
                rcases hmem k b k1 k2 hb with h | h
                · exact h
                · refine absurd (Unify.sameAtom_iff.2 hs) (Bool.eq_false_iff.1 (Unify.not_same_ptr' h fun e => ?_))
                  rw [← e] at h
                  rcases h with h | h
                  · exact hla.2.2.1 h
                  · exact hla.2.2.2 h
              exact Fits.atom hla hlb hs
      · rw [if_pos hw]
        exact ⟨false, rfl, fun h => by cases h⟩

/-- The copy of a structure is the structure. -/
theorem fits_words {t : Tol} (ht : 0 < t.time) {o : Obj} {i : Nat} {w : Word} (hf : FlatAt o i w) (h : Heap) (oc : Opc)
    (M : BMap) : Fits h oc t (SameAtom t) M (.str o i ⟨words o.code i (count w + 1), [], []⟩ 0) := by
  have hl := words_len (c := o.code) (s := i) (n := count w + 1) (by have := hf.len; omega)
  have hfl := hf.len
  have hg : ∀ k, k ≤ count w → (words o.code i (count w + 1))[k]? = o.code[i + k]? := fun k hk => words_get (by omega)
  have hh : (words o.code i (count w + 1))[0]? = some w := (hg 0 (by omega)).trans hf.head
  by_cases hd : getDescriptor w = 0xC7
  · have h2 := hf.time hd
    obtain ⟨x, hx⟩ := getInt64_some (c := o.code) (i := i + 1) (by omega)
    refine Fits.time hf.head hh hd hx (b := x) ?_ (by simpa using ht)
    simp only [getInt64, Words.get] at hx ⊢
    rw [hg 1 (by omega), hg (1 + 1) (by omega)]
    exact hx
  · cases hr : raw w with
    | true =>
      refine Fits.data hf.head hh hr hd fun k k1 k2 => ?_
      have h1 := List.getElem?_eq_getElem (show i + k < o.code.length by omega)
      exact ⟨_, _, h1, by rw [Nat.zero_add]; exact (hg k k2).trans h1, Or.inl rfl⟩
    | false =>
      refine Fits.str hf.head hh hr (fun k k1 k2 => ?_) fun k a b k1 k2 ha hb => ?_
      · have h1 := List.getElem?_eq_getElem (show i + k < o.code.length by omega)
        exact ⟨_, _, h1, by rw [Nat.zero_add]; exact (hg k k2).trans h1⟩
      · rw [Nat.zero_add] at hb
        have : a = b := Option.some.inj (ha.symm.trans ((hg k k2).symm.trans hb))
        subst this
        exact Fits.atom (hf.leaf k a k1 k2 ha) (hf.leaf k a k1 k2 ha) (Or.inl rfl)

theorem structVariable_spec {h : Heap} {oc : Opc} {t : Tol} (h0 : 0 < t.time) {m : BMap} (hm : Good h oc m)
    (ht : Tight m) {o : Obj} {i : Nat} {w : Word} (hf : FlatAt o i w) {first : Int} (hst : Start m first) (f : Nat) :
    ∃ m' v, structVariable t (f + 1) m o.code i first = some (m', v) ∧
      Found m m' v (.struct (words o.code i (count w + 1)))
        (fun y => ∃ c, y = .struct c ∧ ∀ h oc M, Fits h oc t (SameAtom t) M (.str o i ⟨c, [], []⟩ 0)) ∧
      (Distinct t m → Distinct t m') := by
  have hnew : Distinct t m → Distinct t (varOf m (.struct (words o.code i (count w + 1))) none).1 := by
    intro hd
    have hget : ∀ (j : Nat) y, (m.slots ++ [Slot.bound (.struct (words o.code i (count w + 1)))])[j]? = some y →
        m.slots[j]? = some y ∨ y = .bound (.struct (words o.code i (count w + 1))) := by
      intro j y hj
      rcases Nat.lt_or_ge j m.slots.length with h | h
      · rw [List.getElem?_append_left h] at hj; exact Or.inl hj
      · rw [List.getElem?_append_right h] at hj
        have := List.mem_of_getElem? hj
        exact Or.inr (by simpa using this)
    constructor
    · intro a b r ha hb
      rcases hget a _ ha with ha | ha
      · rcases hget b _ hb with hb | hb
        · exact hd.obj a b r ha hb
        · cases hb
      · cases ha
    · intro a b x y ha hb hxy
      rcases hget a _ ha with ha | ha
      · rcases hget b _ hb with hb | hb
        · exact hd.atom a b x y ha hb hxy
        · cases hb
      · cases ha
  have hnone : ∀ r, r = some (none : Option Nat) → ∃ m' v, (r.bind fun r =>
      match r with
      | some i => some (m, vl i)
      | none => (structureValue (f + 1) o.code i).map fun c => varOf m (.struct c) none) = some (m', v) ∧
      Found m m' v (.struct (words o.code i (count w + 1)))
        (fun y => ∃ c, y = .struct c ∧ ∀ h oc M, Fits h oc t (SameAtom t) M (.str o i ⟨c, [], []⟩ 0)) ∧
      (Distinct t m → Distinct t m') := by
    intro r hr
    subst hr
    rw [Option.bind_some, structureValue_flat hf f, Option.map_some]
    exact ⟨_, _, rfl, varOf_new ⟨_, rfl, fun h oc M => fits_words h0 hf h oc M⟩, hnew⟩
  unfold structVariable
  by_cases hc : first ≥ 0 ∧ m.slots.length > 0
  · simp only [if_pos hc]
    have hle : ¬ first.toNat > m.slots.length := by rcases hst with h | h <;> omega
    simp only [if_neg hle]
    have hlt : first.toNat < m.slots.length := by rcases hst with h | h <;> omega
    rcases roundVar_spec (g := containsStr t o.code i) hlt (fun s hs => by
        obtain ⟨v, hv⟩ := List.getElem?_of_mem hs
        obtain ⟨b, hb, -⟩ := containsStr_spec (t := t) hm ht hf hv
        rw [hb]; rfl) m.slots.length first.toNat hlt (by unfold way; split <;> omega) with
      ⟨j, s, h1, h2, h3⟩ | h1
    · rw [h1]
      obtain ⟨b, hb, hb'⟩ := containsStr_spec (t := t) hm ht hf h2
      rw [h3] at hb
      cases hb
      obtain ⟨c, hs, hfit⟩ := hb' rfl
      subst hs
      exact ⟨m, vl j, rfl, varOf_old h2 ⟨c, rfl, hfit⟩, id⟩
    · exact hnone _ h1
  · simp only [if_neg hc]
    exact hnone _ rfl

end Verif.Abstract
