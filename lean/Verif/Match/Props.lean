import Verif.Match.Model
import Verif.Words.Props
/-!
# Property C19: fact matching is a similarity relation
-/
namespace Verif.Match
open Verif.Atom Verif.Words

/-! ## Specification: position by position, no order of evaluation, no fuel -/

/-- A word which is neither a wildcard, a variable nor a pointer. -/
def Plain (w : Word) : Prop := ¬ isWild w ∧ ¬ isVar w ∧ ¬ isIPtr w ∧ ¬ isRPtr w

/-- Two plain words are the same value: equal words, or numbers within the tolerance. -/
def SameAtom (t : Tol) (l r : Word) : Prop :=
  l = r ∨ (isFloat l = true ∧ isFloat r = true ∧ equal t (asFloat l) (asFloat r) = true)

/-- Entities, ontologies, models and composite states: only the same object is like them. -/
def Named (oc : Opc) (w : Word) : Prop :=
  asOpcode w = oc.ent ∨ asOpcode w = oc.ont ∨ asOpcode w = oc.mdl ∨ asOpcode w = oc.cst

instance (oc : Opc) (w : Word) : Decidable (Named oc w) := by unfold Named; infer_instance

theorem named_iff {oc : Opc} {w : Word} : byIdentity oc w = true ↔ Named oc w := by
  simp only [byIdentity, Named, Bool.or_eq_true, beq_iff_eq, or_assoc]

/-- The kinds of words the specification speaks of: wildcards, variables, pointers into the same object and to
references. -/
theorem C19_kinds (w : Word) :
    (isWild w = true ↔ getDescriptor w = 0x82 ∨ getDescriptor w = 0x83) ∧
    (isVar w = true ↔ getDescriptor w = 0x86) ∧ (isIPtr w = true ↔ getDescriptor w = 0x84) ∧
    (isRPtr w = true ↔ getDescriptor w = 0x85) := by
  simp only [isWild, isVar, isIPtr, isRPtr, Bool.or_eq_true, beq_iff_eq]
  exact ⟨or_comm, trivial, trivial, trivial⟩

mutual
/-- The word `wl` of object `l` is like the word `wr` of object `r`. -/
inductive WordLike (h : Heap) (oc : Opc) (t : Tol) (strict : Bool) :
    Nat → Word → Nat → Word → Prop
  | wildL {l wl r wr} : isWild wl → WordLike h oc t strict l wl r wr
  | wildR {l wl r wr} : isWild wr → WordLike h oc t strict l wl r wr
  | vars {l wl r wr} : isVar wl → isVar wr → WordLike h oc t strict l wl r wr
  | varL {l wl r wr} : strict = false → isVar wl → WordLike h oc t strict l wl r wr
  | varR {l wl r wr} : strict = false → isVar wr → WordLike h oc t strict l wl r wr
  | sub {l wl r wr} : isIPtr wl → isIPtr wr →
      StructLike h oc t strict l (asIndex wl).toNat r (asIndex wr).toNat →
      WordLike h oc t strict l wl r wr
  | obj {l wl r wr a b} : isRPtr wl → isRPtr wr → ref h l (asIndex wl).toNat = some a →
      ref h r (asIndex wr).toNat = some b → ObjLike h oc t strict a b →
      WordLike h oc t strict l wl r wr
  | plain {l wl r wr} : Plain wl → Plain wr → SameAtom t wl wr → WordLike h oc t strict l wl r wr
/-- The structure at `i` of object `l` is like the structure at `j` of object `r`. -/
inductive StructLike (h : Heap) (oc : Opc) (t : Tol) (strict : Bool) :
    Nat → Nat → Nat → Nat → Prop
  | empty {l i r j w} : word h l i = some w → word h r j = some w → getAtomCount w = 0 →
      StructLike h oc t strict l i r j
  | time {l i r j w a b} : word h l i = some w → word h r j = some w → getDescriptor w = 0xC7 →
      timeAt h l i = some a → timeAt h r j = some b →
      ((a.toInt - b.toInt).natAbs : Int) < t.time → StructLike h oc t strict l i r j
  | args {l i r j w} : word h l i = some w → word h r j = some w → getDescriptor w ≠ 0xC7 →
      (∀ k wl wr, 1 ≤ k → k ≤ (getAtomCount w).toNat → word h l (i + k) = some wl →
        word h r (j + k) = some wr → WordLike h oc t strict l wl r wr) →
      StructLike h oc t strict l i r j
/-- Object `l` is like object `r`. -/
inductive ObjLike (h : Heap) (oc : Opc) (t : Tol) (strict : Bool) : Nat → Nat → Prop
  | same {l w} : word h l 0 = some w → Named oc w → ObjLike h oc t strict l l
  | args {l r w} : word h l 0 = some w → word h r 0 = some w → ¬ Named oc w →
      (∀ k wl wr, 1 ≤ k → k ≤ (getAtomCount w).toNat → word h l k = some wl →
        word h r k = some wr → WordLike h oc t strict l wl r wr) →
      ObjLike h oc t strict l r
end

/-! ## Proof internals -/

theorem desc_cases {w : Word} : 
    (isWild w = true → isVar w = false ∧ isIPtr w = false ∧ isRPtr w = false) ∧
    (isVar w = true → isWild w = false ∧ isIPtr w = false ∧ isRPtr w = false) ∧
    (isIPtr w = true → isWild w = false ∧ isVar w = false ∧ isRPtr w = false) ∧
    (isRPtr w = true → isWild w = false ∧ isVar w = false ∧ isIPtr w = false) := by
  unfold isWild isVar isIPtr isRPtr
  refine ⟨?_, ?_, ?_, ?_⟩ <;> intro h <;>
    simp only [Bool.or_eq_true, beq_iff_eq] at h
  · rcases h with h | h <;> rw [h] <;> decide
  all_goals rw [h]; decide

theorem equal_comm (t : Tol) (l r : BitVec 32) : equal t l r = equal t r l := by
  have hv : (value l - value r).natAbs = (value r - value l).natAbs := by omega
  have h1 : feq l r = feq r l := by
    simp only [feq, Bool.or_comm (isNaN l), Bool.or_comm (isInf l)]
    congr 1
    · congr 1
      · exact Bool.eq_iff_iff.mpr (by simp only [beq_iff_eq]; exact eq_comm)
      · exact Bool.eq_iff_iff.mpr (by simp only [beq_iff_eq]; exact eq_comm)
  have h2 : closer t.float l r = closer t.float r l := by
    simp only [closer, hv]
    have : (isNaN t.float || isNaN l || isNaN r || isInf l || isInf r) =
        (isNaN t.float || isNaN r || isNaN l || isInf r || isInf l) := by
      cases isNaN t.float <;> cases isNaN l <;> cases isNaN r <;> cases isInf l <;> cases isInf r <;> rfl
    rw [this]
  rw [equal, equal, h1, h2]

theorem matchAtom_comm (t : Tol) (l r : Word) : matchAtom t l r = matchAtom t r l := by
  simp only [matchAtom, equal_comm t (asFloat l), Bool.and_comm (isFloat l)]
  congr 1
  exact Bool.eq_iff_iff.mpr (by simp only [beq_iff_eq]; exact eq_comm)

theorem matchAtom_iff (t : Tol) (l r : Word) : matchAtom t l r = true ↔ SameAtom t l r := by
  simp [matchAtom, SameAtom, and_assoc]

theorem synchronous_comm (t : Tol) (a b : BitVec 64) : synchronous t a b = synchronous t b a := by
  simp only [synchronous]; congr 2; omega

theorem sameState_comm (s : Bool) (a b : Word) : sameState s a b = sameState s b a := by
  simp only [sameState]
  cases s <;> cases isWild a <;> cases isWild b <;> cases isVar a <;> cases isVar b <;> rfl

theorem isFloat_ptr {w : Word} (h : isIPtr w = true ∨ isRPtr w = true) : isFloat w = false := by
  rw [isFloat_eq, decide_eq_false_iff_not]
  have h1 := getDescriptor_toNat w
  simp only [isIPtr, isRPtr, beq_iff_eq] at h
  rcases h with h | h <;> rw [h] at h1 <;> simp at h1 <;> omega

theorem matchAtom_ptr {t : Tol} {l r : Word} (h : isIPtr r = true ∨ isRPtr r = true)
    (hl : isIPtr l ≠ isIPtr r ∨ isRPtr l ≠ isRPtr r) : matchAtom t l r = false := by
  have hne : (l == r) = false := by
    rw [beq_eq_false_iff_ne]; rintro rfl; rcases hl with h | h <;> exact h rfl
  simp [matchAtom, hne, isFloat_ptr h]

theorem matchWord_comm (t : Tol) (s : Bool) (wl wr : Word) (st ob : Option Bool) :
    matchWord t s wl wr st ob = matchWord t s wr wl st ob := by
  obtain ⟨l1, l2, l3, l4⟩ := @desc_cases wl
  obtain ⟨r1, r2, r3, r4⟩ := @desc_cases wr
  have p1 := @matchAtom_ptr t wl wr
  have p2 := @matchAtom_ptr t wr wl
  rw [matchAtom_comm] at p2
  unfold matchWord
  rw [sameState_comm, matchAtom_comm t wr wl]
  cases a1 : isWild wl <;> cases a2 : isVar wl <;> cases a3 : isIPtr wl <;> cases a4 : isRPtr wl <;>
    simp [a1, a2, a3, a4] at l1 l2 l3 l4 <;>
  cases b1 : isWild wr <;> cases b2 : isVar wr <;> cases b3 : isIPtr wr <;> cases b4 : isRPtr wr <;>
    simp [b1, b2, b3, b4] at r1 r2 r3 r4 <;>
  simp [a3, a4, b3, b4] at p1 p2 <;> simp [*]

/-- Symmetry of the code, at the same fuel. -/
theorem match_comm (h : Heap) (oc : Opc) (t : Tol) (s : Bool) (n : Nat) :
    (∀ l base k r rbase arity, matchFrom h oc t s n l base k r (rbase + k) arity =
      matchFrom h oc t s n r rbase k l (base + k) arity) ∧
    (∀ l i r j, matchStructure h oc t s n l i r j = matchStructure h oc t s n r j l i) ∧
    (∀ l r, matchObject h oc t s n l r = matchObject h oc t s n r l) := by
  induction n with
  | zero => exact ⟨fun _ _ _ _ _ _ => by simp only [matchFrom], fun _ _ _ _ => by simp only [matchStructure], fun _ _ => by simp only [matchObject]⟩
  | succ n ih =>
    obtain ⟨ih1, ih2, ih3⟩ := ih
    refine ⟨?_, ?_, ?_⟩
    · intro l base k r rbase arity
      simp only [matchFrom]
      cases e1 : word h l (base + k) <;> cases e2 : word h r (rbase + k) <;> simp only
      rename_i wl wr
      rw [matchWord_comm, ih2]
      have e3 : matchFrom h oc t s n l base (k + 1) r (rbase + k + 1) arity =
          matchFrom h oc t s n r rbase (k + 1) l (base + k + 1) arity := by
        rw [Nat.add_assoc, ih1 l base (k + 1) r rbase arity, Nat.add_assoc]
      rw [e3]
      congr 2
      cases ref h l (asIndex wl).toNat <;> cases ref h r (asIndex wr).toNat <;> simp only
      exact ih3 _ _
    · intro l i r j
      simp only [matchStructure]
      cases e1 : word h l i <;> cases e2 : word h r j <;> simp only
      rename_i wl wr
      by_cases hw : wl = wr
      · subst hw
        simp only [ne_eq, not_true_eq_false, if_false]
        split
        · rfl
        · split
          · cases timeAt h l i <;> cases timeAt h r j <;> simp only
            rw [synchronous_comm]
          · exact ih1 l i 1 r j _
      · rw [if_pos hw, if_pos (Ne.symm hw)]
    · intro l r
      simp only [matchObject]
      cases e1 : word h l 0 <;> cases e2 : word h r 0 <;> simp only
      rename_i wl wr
      by_cases hw : wl = wr
      · subst hw
        simp only [ne_eq, not_true_eq_false, if_false]
        split
        · congr 1; exact Bool.eq_iff_iff.mpr (by simp only [beq_iff_eq]; exact eq_comm)
        · have := ih1 l 0 1 r 0 (getAtomCount wl).toNat
          simpa using this
      · rw [if_pos hw, if_pos (Ne.symm hw)]

theorem andThen_true {a b : Option Bool} : andThen a b = some true ↔ a = some true ∧ b = some true := by
  unfold andThen; split <;> simp_all
theorem andThen_false {a b : Option Bool} :
    andThen a b = some false ↔ a = some false ∨ (a = some true ∧ b = some false) := by
  unfold andThen; split <;> simp_all

theorem matchWord_true {h : Heap} {oc : Opc} {t : Tol} {s : Bool} {l r : Nat} {wl wr : Word}
    {st ob : Option Bool}
    (hst : st = some true → StructLike h oc t s l (asIndex wl).toNat r (asIndex wr).toNat)
    (hob : ob = some true → ∃ a b, ref h l (asIndex wl).toNat = some a ∧
      ref h r (asIndex wr).toNat = some b ∧ ObjLike h oc t s a b)
    (hm : matchWord t s wl wr st ob = some true) : WordLike h oc t s l wl r wr := by
  obtain ⟨r1, r2, r3, r4⟩ := @desc_cases wr
  obtain ⟨l1, l2, l3, l4⟩ := @desc_cases wl
  unfold matchWord at hm
  by_cases c0 : isWild wl = true
  · exact .wildL c0
  by_cases c1 : isWild wr = true
  · exact .wildR c1
  simp only [Bool.not_eq_true] at c0 c1
  simp only [sameState, c0, c1, Bool.or_false, Bool.false_or] at hm
  cases s with
  | false =>
    by_cases c2 : isVar wl = true
    · exact .varL rfl c2
    by_cases c3 : isVar wr = true
    · exact .varR rfl c3
    simp only [Bool.not_eq_true] at c2 c3
    simp only [c2, c3, Bool.not_false, Bool.true_or, Bool.not_true, Bool.false_eq_true, if_false,
      Bool.false_or] at hm
    by_cases c4 : isIPtr wl = true
    · by_cases c5 : isIPtr wr = true
      · simp only [c4, c5, if_true] at hm; exact .sub c4 c5 (hst hm)
      · simp [c4, c5] at hm
    by_cases c6 : isRPtr wl = true
    · by_cases c5 : isRPtr wr = true
      · simp only [c4, c5, c6, if_true] at hm
        obtain ⟨a, b, q1, q2, q3⟩ := hob hm
        exact .obj c6 c5 q1 q2 q3
      · simp [c4, c5, c6] at hm
    simp only [c4, c6, Bool.false_eq_true, if_false, Option.some.injEq] at hm
    have k1 : isIPtr wr ≠ true := fun hh => by
      rw [matchAtom_ptr (Or.inl hh) (Or.inl (by rw [hh]; exact c4))] at hm; cases hm
    have k2 : isRPtr wr ≠ true := fun hh => by
      rw [matchAtom_ptr (Or.inr hh) (Or.inr (by rw [hh]; exact c6))] at hm; cases hm
    exact .plain ⟨by simp [c0], by simp [c2], c4, c6⟩ ⟨by simp [c1], by simp [c3], k1, k2⟩
      ((matchAtom_iff t wl wr).mp hm)
  | true =>
    by_cases c2 : isVar wl = true
    · by_cases c3 : isVar wr = true
      · exact .vars c2 c3
      · simp [c2, c3] at hm
    by_cases c3 : isVar wr = true
    · simp [c2, c3] at hm
    simp only [Bool.not_eq_true] at c2 c3
    simp only [c2, c3, Bool.not_true, Bool.false_or, beq_self_eq_true, Bool.false_eq_true,
      if_false] at hm
    by_cases c4 : isIPtr wl = true
    · by_cases c5 : isIPtr wr = true
      · simp only [c4, c5, if_true] at hm; exact .sub c4 c5 (hst hm)
      · simp [c4, c5] at hm
    by_cases c6 : isRPtr wl = true
    · by_cases c5 : isRPtr wr = true
      · simp only [c4, c5, c6, if_true] at hm
        obtain ⟨a, b, q1, q2, q3⟩ := hob hm
        exact .obj c6 c5 q1 q2 q3
      · simp [c4, c5, c6] at hm
    simp only [c4, c6, Bool.false_eq_true, if_false, Option.some.injEq] at hm
    have k1 : isIPtr wr ≠ true := fun hh => by
      rw [matchAtom_ptr (Or.inl hh) (Or.inl (by rw [hh]; exact c4))] at hm; cases hm
    have k2 : isRPtr wr ≠ true := fun hh => by
      rw [matchAtom_ptr (Or.inr hh) (Or.inr (by rw [hh]; exact c6))] at hm; cases hm
    exact .plain ⟨by simp [c0], by simp [c2], c4, c6⟩ ⟨by simp [c1], by simp [c3], k1, k2⟩
      ((matchAtom_iff t wl wr).mp hm)

theorem matchWord_false {h : Heap} {oc : Opc} {t : Tol} {s : Bool} {l r : Nat} {wl wr : Word}
    {st ob : Option Bool}
    (hst : st = some false → ¬ StructLike h oc t s l (asIndex wl).toNat r (asIndex wr).toNat)
    (hob : ob = some false → ∀ a b, ref h l (asIndex wl).toNat = some a →
      ref h r (asIndex wr).toNat = some b → ¬ ObjLike h oc t s a b)
    (hm : matchWord t s wl wr st ob = some false) : ¬ WordLike h oc t s l wl r wr := by
  obtain ⟨r1, r2, r3, r4⟩ := @desc_cases wr
  obtain ⟨l1, l2, l3, l4⟩ := @desc_cases wl
  intro hw
  unfold matchWord at hm
  cases hw with
  | wildL c => simp [sameState, c] at hm
  | wildR c =>
    obtain ⟨q1, q2, q3⟩ := r1 c
    simp only [sameState, c, q1, q2, q3, Bool.or_true, Bool.true_or, Bool.not_true,
      Bool.false_eq_true, if_false] at hm
    revert hm; split <;> try simp
  | vars c c' =>
    obtain ⟨q1, q2, q3⟩ := r2 c'
    simp [sameState, c, c'] at hm
  | varL c c' => subst c; simp [sameState, c'] at hm
  | varR c c' =>
    subst c
    obtain ⟨q1, q2, q3⟩ := r2 c'
    simp only [sameState, c', q1, q2, q3, Bool.not_false, Bool.true_or, Bool.or_true, Bool.not_true,
      Bool.false_eq_true, if_false] at hm
    revert hm; split <;> try simp
  | sub c c' hs =>
    obtain ⟨q1, q2, q3⟩ := r3 c'
    obtain ⟨p1, p2, p3⟩ := l3 c
    simp only [sameState, c, c', q1, q2, q3, p1, p2, p3, beq_self_eq_true, Bool.or_true,
      Bool.not_true, Bool.false_eq_true, if_false, if_true, Bool.or_false] at hm
    exact hst hm hs
  | obj c c' e1 e2 hs =>
    obtain ⟨q1, q2, q3⟩ := r4 c'
    obtain ⟨p1, p2, p3⟩ := l4 c
    simp only [sameState, c, c', q1, q2, q3, p1, p2, p3, beq_self_eq_true, Bool.or_true,
      Bool.not_true, Bool.false_eq_true, if_false, if_true, Bool.or_false] at hm
    exact hob hm _ _ e1 e2 hs
  | plain c c' hs =>
    obtain ⟨p1, p2, p3, p4⟩ := c
    obtain ⟨q1, q2, q3, q4⟩ := c'
    simp only [Bool.not_eq_true] at p1 p2 p3 p4 q1 q2 q3 q4
    rw [← matchAtom_iff] at hs
    simp [sameState, p1, p2, p3, p4, q1, q2, hs] at hm

/-- Objects other than entities, ontologies, models and composite states have arguments. -/
def HasArgs (h : Heap) (oc : Opc) : Prop :=
  ∀ o w, word h o 0 = some w → ¬ Named oc w → getAtomCount w ≠ 0

/-- The code against the specification, at every fuel. -/
theorem match_spec (h : Heap) (oc : Opc) (t : Tol) (s : Bool) (hh : HasArgs h oc) (n : Nat) :
    (∀ l base k r rbase arity, k ≤ arity →
      (matchFrom h oc t s n l base k r (rbase + k) arity = some true →
        ∀ k' wl wr, k ≤ k' → k' ≤ arity → word h l (base + k') = some wl →
          word h r (rbase + k') = some wr → WordLike h oc t s l wl r wr) ∧
      (matchFrom h oc t s n l base k r (rbase + k) arity = some false →
        ∃ k' wl wr, k ≤ k' ∧ k' ≤ arity ∧ word h l (base + k') = some wl ∧
          word h r (rbase + k') = some wr ∧ ¬ WordLike h oc t s l wl r wr)) ∧
    (∀ l i r j,
      (matchStructure h oc t s n l i r j = some true → StructLike h oc t s l i r j) ∧
      (matchStructure h oc t s n l i r j = some false → ¬ StructLike h oc t s l i r j)) ∧
    (∀ l r,
      (matchObject h oc t s n l r = some true → ObjLike h oc t s l r) ∧
      (matchObject h oc t s n l r = some false → ¬ ObjLike h oc t s l r)) := by
  induction n with
  | zero =>
    refine ⟨fun _ _ _ _ _ _ _ => ⟨fun h => ?_, fun h => ?_⟩, fun _ _ _ _ => ⟨fun h => ?_, fun h => ?_⟩,
      fun _ _ => ⟨fun h => ?_, fun h => ?_⟩⟩ <;>
    first
      | (simp only [matchFrom] at h; cases h; done)
      | (simp only [matchStructure] at h; cases h; done)
      | (simp only [matchObject] at h; cases h; done)
  | succ n ih =>
    obtain ⟨ih1, ih2, ih3⟩ := ih
    refine ⟨?_, ?_, ?_⟩
    · intro l base k r rbase arity hk
      simp only [matchFrom]
      cases e1 : word h l (base + k) <;> cases e2 : word h r (rbase + k) <;> simp only <;>
        try (constructor <;> (intro hx; cases hx; done))
      rename_i wl wr
      constructor
      · intro hm
        rw [andThen_true] at hm
        obtain ⟨m1, m2⟩ := hm
        intro k' wl' wr' g1 g2 g3 g4
        by_cases hkk : k' = k
        · subst hkk
          rw [e1] at g3; rw [e2] at g4; cases g3; cases g4
          refine matchWord_true ((ih2 _ _ _ _).1) ?_ m1
          intro ho
          revert ho
          cases e3 : ref h l (asIndex wl).toNat <;> cases e4 : ref h r (asIndex wr).toNat <;> simp only <;>
            try (intro hx; cases hx; done)
          intro ho
          exact ⟨_, _, rfl, rfl, (ih3 _ _).1 ho⟩
        · rw [if_neg (by omega), Nat.add_assoc] at m2
          exact (ih1 l base (k + 1) r rbase arity (by omega)).1 m2 k' wl' wr' (by omega) g2 g3 g4
      · intro hm
        rw [andThen_false] at hm
        rcases hm with hm | ⟨_, hm⟩
        · refine ⟨k, wl, wr, Nat.le_refl _, hk, e1, e2, matchWord_false ((ih2 _ _ _ _).2) ?_ hm⟩
          intro ho a b q1 q2
          rw [q1, q2] at ho
          exact (ih3 _ _).2 ho
        · by_cases hka : k = arity
          · rw [if_pos hka] at hm; cases hm
          · rw [if_neg hka, Nat.add_assoc] at hm
            obtain ⟨k', wl', wr', g1, g2, g3⟩ := (ih1 l base (k + 1) r rbase arity (by omega)).2 hm
            exact ⟨k', wl', wr', by omega, g2, g3⟩
    · intro l i r j
      simp only [matchStructure]
      cases e1 : word h l i <;> cases e2 : word h r j <;> simp only <;>
        try (constructor <;> (intro hx; cases hx; done))
      rename_i wl wr
      by_cases hw : wl = wr
      · subst hw
        simp only [ne_eq, not_true_eq_false, if_false]
        by_cases hc : getAtomCount wl = 0
        · rw [if_pos hc]; exact ⟨fun _ => .empty e1 e2 hc, by simp⟩
        · rw [if_neg hc]
          by_cases hd : getDescriptor wl = 0xC7
          · rw [if_pos hd]
            cases e3 : timeAt h l i <;> cases e4 : timeAt h r j <;> simp only <;>
              try (constructor <;> (intro hx; cases hx; done))
            refine ⟨fun hs => .time e1 e2 hd e3 e4 (by simpa [synchronous] using hs), ?_⟩
            intro hs hsl
            cases hsl with
            | empty q1 q2 q3 => rw [e1] at q1; cases q1; exact hc q3
            | time q1 q2 q3 q4 q5 q6 =>
              rw [e3] at q4; rw [e4] at q5; cases q4; cases q5
              simp only [synchronous, Option.some.injEq, decide_eq_false_iff_not] at hs
              exact hs q6
            | args q1 q2 q3 q4 => rw [e1] at q1; cases q1; exact q3 hd
          · rw [if_neg hd]
            have hpos : 1 ≤ (getAtomCount wl).toNat := by
              rcases Nat.eq_zero_or_pos (getAtomCount wl).toNat with h0 | h0
              · exact absurd (BitVec.eq_of_toNat_eq (by simpa using h0)) hc
              · exact h0
            obtain ⟨k1, k2⟩ := ih1 l i 1 r j (getAtomCount wl).toNat hpos
            refine ⟨fun hm => .args e1 e2 hd (fun k wl' wr' g1 g2 g3 g4 => k1 hm k wl' wr' g1 g2 g3 g4), ?_⟩
            intro hm hsl
            obtain ⟨k', wl', wr', g1, g2, g3, g4, g5⟩ := k2 hm
            cases hsl with
            | empty q1 q2 q3 => rw [e1] at q1; cases q1; exact hc q3
            | time q1 q2 q3 q4 q5 q6 => rw [e1] at q1; cases q1; exact hd q3
            | args q1 q2 q3 q4 =>
              rw [e1] at q1; cases q1
              exact g5 (q4 k' wl' wr' g1 g2 g3 g4)
      · rw [if_pos hw]
        refine ⟨by simp, fun _ hsl => ?_⟩
        cases hsl with
        | empty q1 q2 q3 => rw [e1] at q1; rw [e2] at q2; cases q1; cases q2; exact hw rfl
        | time q1 q2 q3 q4 q5 q6 => rw [e1] at q1; rw [e2] at q2; cases q1; cases q2; exact hw rfl
        | args q1 q2 q3 q4 => rw [e1] at q1; rw [e2] at q2; cases q1; cases q2; exact hw rfl
    · intro l r
      simp only [matchObject]
      cases e1 : word h l 0 <;> cases e2 : word h r 0 <;> simp only <;>
        try (constructor <;> (intro hx; cases hx; done))
      rename_i wl wr
      by_cases hw : wl = wr
      · subst hw
        simp only [ne_eq, not_true_eq_false, if_false]
        by_cases hb : byIdentity oc wl = true
        · rw [if_pos hb]
          constructor
          · intro hm
            simp only [Option.some.injEq, beq_iff_eq] at hm
            subst hm
            exact .same e1 (named_iff.1 hb)
          · intro hm hol
            simp only [Option.some.injEq, beq_eq_false_iff_ne, ne_eq] at hm
            cases hol with
            | same => exact hm rfl
            | args q1 q2 q3 q4 => rw [e1] at q1; cases q1; exact q3 (named_iff.1 hb)
        · rw [if_neg hb]
          have hpos : 1 ≤ (getAtomCount wl).toNat := by
            rcases Nat.eq_zero_or_pos (getAtomCount wl).toNat with h0 | h0
            · exact absurd (BitVec.eq_of_toNat_eq (by simpa using h0))
                (hh l wl e1 fun e => hb (named_iff.2 e))
            · exact h0
          obtain ⟨k1, k2⟩ := ih1 l 0 1 r 0 (getAtomCount wl).toNat hpos
          simp only [Nat.zero_add] at k1 k2
          refine ⟨fun hm => .args e1 e2 (fun e => hb (named_iff.2 e)) (fun k wl' wr' g1 g2 g3 g4 => k1 hm k wl' wr' g1 g2 g3 g4), ?_⟩
          intro hm hol
          obtain ⟨k', wl', wr', g1, g2, g3, g4, g5⟩ := k2 hm
          cases hol with
          | same q1 q2 => rw [e1] at q1; cases q1; exact hb (named_iff.2 q2)
          | args q1 q2 q3 q4 =>
            rw [e1] at q1; cases q1
            exact g5 (q4 k' wl' wr' g1 g2 g3 g4)
      · rw [if_pos hw]
        refine ⟨by simp, fun _ hol => ?_⟩
        cases hol with
        | same q1 q2 => rw [e1] at e2; cases e2; exact hw rfl
        | args q1 q2 q3 q4 => rw [e1] at q1; rw [e2] at q2; cases q1; cases q2; exact hw rfl

theorem matchWord_mono {t : Tol} {s : Bool} {wl wr : Word} {st ob st' ob' : Option Bool} {b : Bool}
    (hst : ∀ b, st = some b → st' = some b) (hob : ∀ b, ob = some b → ob' = some b)
    (hm : matchWord t s wl wr st ob = some b) : matchWord t s wl wr st' ob' = some b := by
  unfold matchWord at hm ⊢
  split
  · rename_i c; rw [if_pos c] at hm; exact hm
  · rename_i c; rw [if_neg c] at hm
    split
    · rename_i c; rw [if_pos c] at hm; exact hm
    · rename_i c; rw [if_neg c] at hm
      split
      · rename_i c; rw [if_pos c] at hm
        split
        · rename_i c; rw [if_pos c] at hm; exact hst b hm
        · rename_i c; rw [if_neg c] at hm; exact hm
      · rename_i c; rw [if_neg c] at hm
        split
        · rename_i c; rw [if_pos c] at hm
          split
          · rename_i c; rw [if_pos c] at hm; exact hob b hm
          · rename_i c; rw [if_neg c] at hm; exact hm
        · rename_i c; rw [if_neg c] at hm; exact hm

theorem andThen_mono {a b a' b' : Option Bool} {x : Bool} (ha : ∀ x, a = some x → a' = some x)
    (hb : ∀ x, b = some x → b' = some x) (h : andThen a b = some x) : andThen a' b' = some x := by
  cases a with
  | none => cases h
  | some v =>
    rw [ha v rfl]
    cases v with
    | false => exact h
    | true => exact hb x h

/-- More fuel never changes a result. -/
theorem match_mono (h : Heap) (oc : Opc) (t : Tol) (s : Bool) (n : Nat) :
    (∀ l base k r rk arity b, matchFrom h oc t s n l base k r rk arity = some b →
      matchFrom h oc t s (n + 1) l base k r rk arity = some b) ∧
    (∀ l i r j b, matchStructure h oc t s n l i r j = some b →
      matchStructure h oc t s (n + 1) l i r j = some b) ∧
    (∀ l r b, matchObject h oc t s n l r = some b → matchObject h oc t s (n + 1) l r = some b) := by
  induction n with
  | zero =>
    refine ⟨fun _ _ _ _ _ _ _ h => ?_, fun _ _ _ _ _ h => ?_, fun _ _ _ h => ?_⟩
    · simp only [matchFrom] at h; cases h
    · simp only [matchStructure] at h; cases h
    · simp only [matchObject] at h; cases h
  | succ n ih =>
    obtain ⟨ih1, ih2, ih3⟩ := ih
    refine ⟨?_, ?_, ?_⟩
    · intro l base k r rk arity b hm
      rw [matchFrom] at hm ⊢
      cases e1 : word h l (base + k) <;> cases e2 : word h r rk <;> rw [e1, e2] at hm <;>
        simp only at hm ⊢ <;> try (cases hm; done)
      rename_i wl wr
      refine andThen_mono (fun x hx => matchWord_mono (fun b => ih2 _ _ _ _ b) ?_ hx) ?_ hm
      · intro b
        cases ref h l (asIndex wl).toNat <;> cases ref h r (asIndex wr).toNat <;> simp only <;>
          try (intro hx; cases hx; done)
        exact ih3 _ _ b
      · intro b
        split
        · exact id
        · exact ih1 _ _ _ _ _ _ b
    · intro l i r j b hm
      rw [matchStructure] at hm ⊢
      cases e1 : word h l i <;> cases e2 : word h r j <;> rw [e1, e2] at hm <;>
        simp only at hm ⊢ <;> try (cases hm; done)
      revert hm
      split
      · exact id
      · split
        · exact id
        · split
          · exact id
          · exact ih1 _ _ _ _ _ _ b
    · intro l r b hm
      rw [matchObject] at hm ⊢
      cases e1 : word h l 0 <;> cases e2 : word h r 0 <;> rw [e1, e2] at hm <;>
        simp only at hm ⊢ <;> try (cases hm; done)
      revert hm
      split
      · exact id
      · split
        · exact id
        · exact ih1 _ _ _ _ _ _ b

theorem matchObject_fuel {h : Heap} {oc : Opc} {t : Tol} {s : Bool} {n m l r : Nat} {b : Bool}
    (hm : matchObject h oc t s n l r = some b) (hle : n ≤ m) :
    matchObject h oc t s m l r = some b := by
  induction hle with
  | refl => exact hm
  | step _ ih => exact (match_mono h oc t s _).2.2 _ _ _ ih

theorem matchWord_refl {t : Tol} {s : Bool} {w : Word} {st ob : Option Bool} {b : Bool}
    (hst : ∀ b, st = some b → b = true) (hob : ∀ b, ob = some b → b = true)
    (hm : matchWord t s w w st ob = some b) : b = true := by
  have : sameState s w w = true := by simp [sameState]
  unfold matchWord at hm
  rw [this] at hm
  simp only [Bool.not_true, Bool.false_eq_true, if_false] at hm
  split at hm
  · cases hm; rfl
  · split at hm
    · exact hst b hm
    · split at hm
      · exact hob b hm
      · simp [matchAtom] at hm; exact hm

theorem andThen_all {a b : Option Bool} {x : Bool} (ha : ∀ x, a = some x → x = true)
    (hb : ∀ x, b = some x → x = true) (h : andThen a b = some x) : x = true := by
  cases a with
  | none => cases h
  | some v =>
    cases v with
    | false => exact absurd (ha false rfl) (by simp)
    | true => exact hb x h

theorem match_refl (h : Heap) (oc : Opc) (t : Tol) (s : Bool) (ht : 0 < t.time) (n : Nat) :
    (∀ l base k arity b, matchFrom h oc t s n l base k l (base + k) arity = some b → b = true) ∧
    (∀ l i b, matchStructure h oc t s n l i l i = some b → b = true) ∧
    (∀ l b, matchObject h oc t s n l l = some b → b = true) := by
  induction n with
  | zero =>
    refine ⟨fun _ _ _ _ _ h => ?_, fun _ _ _ h => ?_, fun _ _ h => ?_⟩
    · simp only [matchFrom] at h; cases h
    · simp only [matchStructure] at h; cases h
    · simp only [matchObject] at h; cases h
  | succ n ih =>
    obtain ⟨ih1, ih2, ih3⟩ := ih
    refine ⟨?_, ?_, ?_⟩
    · intro l base k arity b hm
      rw [matchFrom] at hm
      cases e1 : word h l (base + k) <;> rw [e1] at hm <;> simp only at hm <;> try (cases hm; done)
      rename_i w
      refine andThen_all (fun x hx => matchWord_refl (fun b => ih2 _ _ b) ?_ hx) ?_ hm
      · intro b
        cases ref h l (asIndex w).toNat <;> simp only <;> try (intro hx; cases hx; done)
        exact ih3 _ b
      · intro b
        split
        · intro hx; cases hx; rfl
        · rw [Nat.add_assoc]; exact ih1 _ _ _ _ b
    · intro l i b hm
      rw [matchStructure] at hm
      cases e1 : word h l i <;> rw [e1] at hm <;> simp only [ne_eq, not_true_eq_false, if_false] at hm <;>
        try (cases hm; done)
      split at hm
      · cases hm; rfl
      · split at hm
        · cases e3 : timeAt h l i <;> rw [e3] at hm <;> simp only at hm <;> try (cases hm; done)
          simp [synchronous] at hm
          exact hm.symm.trans (by simp [ht])
        · exact ih1 _ _ _ _ b hm
    · intro l b hm
      rw [matchObject] at hm
      cases e1 : word h l 0 <;> rw [e1] at hm <;> simp only [ne_eq, not_true_eq_false, if_false] at hm <;>
        try (cases hm; done)
      split at hm
      · simpa using hm.symm
      · rename_i w _
        have := ih1 l 0 1 (getAtomCount w).toNat b
        simp only [Nat.zero_add] at this
        exact this hm

theorem sameState_weaken {wl wr : Word} : sameState false wl wr = true := by simp [sameState]

theorem matchWord_weaken {t : Tol} {wl wr : Word} {st ob st' ob' : Option Bool}
    (hst : st = some true → st' = some true) (hob : ob = some true → ob' = some true)
    (hm : matchWord t true wl wr st ob = some true) : matchWord t false wl wr st' ob' = some true := by
  unfold matchWord at hm ⊢
  rw [sameState_weaken]
  simp only [Bool.not_true, Bool.false_eq_true, if_false]
  split at hm
  · cases hm
  · split
    · rfl
    · rename_i c; rw [if_neg c] at hm
      split
      · rename_i c; rw [if_pos c] at hm
        split
        · rename_i c; rw [if_pos c] at hm; exact hst hm
        · rename_i c; rw [if_neg c] at hm; exact hm
      · rename_i c; rw [if_neg c] at hm
        split
        · rename_i c; rw [if_pos c] at hm
          split
          · rename_i c; rw [if_pos c] at hm; exact hob hm
          · rename_i c; rw [if_neg c] at hm; exact hm
        · rename_i c; rw [if_neg c] at hm; exact hm

theorem match_weaken (h : Heap) (oc : Opc) (t : Tol) (n : Nat) :
    (∀ l base k r rk arity, matchFrom h oc t true n l base k r rk arity = some true →
      matchFrom h oc t false n l base k r rk arity = some true) ∧
    (∀ l i r j, matchStructure h oc t true n l i r j = some true →
      matchStructure h oc t false n l i r j = some true) ∧
    (∀ l r, matchObject h oc t true n l r = some true →
      matchObject h oc t false n l r = some true) := by
  induction n with
  | zero =>
    refine ⟨fun _ _ _ _ _ _ h => ?_, fun _ _ _ _ h => ?_, fun _ _ h => ?_⟩
    · simp only [matchFrom] at h; cases h
    · simp only [matchStructure] at h; cases h
    · simp only [matchObject] at h; cases h
  | succ n ih =>
    obtain ⟨ih1, ih2, ih3⟩ := ih
    refine ⟨?_, ?_, ?_⟩
    · intro l base k r rk arity hm
      rw [matchFrom] at hm ⊢
      cases e1 : word h l (base + k) <;> cases e2 : word h r rk <;> rw [e1, e2] at hm <;>
        simp only at hm ⊢ <;> try (cases hm; done)
      rename_i wl wr
      rw [andThen_true] at hm ⊢
      refine ⟨matchWord_weaken (ih2 _ _ _ _) ?_ hm.1, ?_⟩
      · cases ref h l (asIndex wl).toNat <;> cases ref h r (asIndex wr).toNat <;> simp only <;>
          try (intro hx; cases hx; done)
        exact ih3 _ _
      · have := hm.2
        split
        · rfl
        · rename_i c; rw [if_neg c] at this; exact ih1 _ _ _ _ _ _ this
    · intro l i r j hm
      rw [matchStructure] at hm ⊢
      cases e1 : word h l i <;> cases e2 : word h r j <;> rw [e1, e2] at hm <;>
        simp only at hm ⊢ <;> try (cases hm; done)
      revert hm
      split
      · exact id
      · split
        · exact id
        · split
          · exact id
          · exact ih1 _ _ _ _ _ _
    · intro l r hm
      rw [matchObject] at hm ⊢
      cases e1 : word h l 0 <;> cases e2 : word h r 0 <;> rw [e1, e2] at hm <;>
        simp only at hm ⊢ <;> try (cases hm; done)
      revert hm
      split
      · exact id
      · split
        · exact id
        · exact ih1 _ _ _ _ _ _

/-! ## C19 -/

/-- C19: whatever the depth of the objects, the verdict (once the code delivers one) is the
position-by-position comparison: headers equal; entities, ontologies, models and composite states
by identity; otherwise argument by argument, wildcards and variables matching anything, references
and structures recursively, time stamps within the time tolerance, other words equal or numbers
within the float tolerance. -/
theorem C19_exact (h : Heap) (oc : Opc) (t : Tol) (strict : Bool) (n l r : Nat) (b : Bool)
    (ha : HasArgs h oc) (hm : matchObject h oc t strict n l r = some b) :
    b = true ↔ ObjLike h oc t strict l r := by
  obtain ⟨h1, h2⟩ := (match_spec h oc t strict ha n).2.2 l r
  cases b with
  | true => exact ⟨fun _ => h1 hm, fun _ => rfl⟩
  | false => exact ⟨fun hb => (nomatch hb), fun ho => absurd ho (h2 hm)⟩

/-- C19: the verdict does not depend on the bound put on the recursion. -/
theorem C19_verdict_unique (h : Heap) (oc : Opc) (t : Tol) (strict : Bool) (n m l r : Nat)
    (b c : Bool) (hb : matchObject h oc t strict n l r = some b)
    (hc : matchObject h oc t strict m l r = some c) : b = c := by
  have h1 := matchObject_fuel hb (Nat.le_max_left n m)
  have h2 := matchObject_fuel hc (Nat.le_max_right n m)
  rw [h1] at h2; exact Option.some.inj h2

/-- C19: matching is symmetric. -/
theorem C19_symmetric (h : Heap) (oc : Opc) (t : Tol) (strict : Bool) (n l r : Nat) :
    matchObject h oc t strict n l r = matchObject h oc t strict n r l :=
  (match_comm h oc t strict n).2.2 l r

/-- C19: an object matches itself, as soon as the time tolerance is positive. -/
theorem C19_reflexive (h : Heap) (oc : Opc) (t : Tol) (strict : Bool) (n l : Nat) (b : Bool)
    (ht : 0 < t.time) (hm : matchObject h oc t strict n l l = some b) : b = true :=
  (match_refl h oc t strict ht n).2.2 l b hm

/-- C19: a strict match is a lenient match ... -/
theorem C19_strict_is_stronger (h : Heap) (oc : Opc) (t : Tol) (n l r : Nat)
    (hm : matchObject h oc t true n l r = some true) :
    matchObject h oc t false n l r = some true :=
  (match_weaken h oc t n).2.2 l r hm

/-- ... in which, at every argument without a wildcard, a variable faces a variable. -/
theorem C19_strict_lines_up (h : Heap) (oc : Opc) (t : Tol) (n l r k : Nat) (w wl wr : Word)
    (ha : HasArgs h oc) (hm : matchObject h oc t true n l r = some true)
    (hw : word h l 0 = some w) (hid : ¬ Named oc w) (hk : 1 ≤ k)
    (hk' : k ≤ (getAtomCount w).toNat) (hl : word h l k = some wl) (hr : word h r k = some wr)
    (nl : isWild wl = false) (nr : isWild wr = false) : isVar wl = isVar wr := by
  have := (C19_exact h oc t true n l r true ha hm).mp rfl
  cases this with
  | same q1 q2 => rw [hw] at q1; cases q1; exact absurd q2 hid
  | args q1 q2 q3 q4 =>
    rw [hw] at q1; cases q1
    obtain ⟨_, v1, i1, r1⟩ := @desc_cases wl
    obtain ⟨_, v2, i2, r2⟩ := @desc_cases wr
    cases q4 k wl wr hk hk' hl hr with
    | wildL c => rw [nl] at c; cases c
    | wildR c => rw [nr] at c; cases c
    | vars c c' => rw [c, c']
    | varL c => cases c
    | varR c => cases c
    | sub c c' => rw [(i1 c).2.1, (i2 c').2.1]
    | obj c c' => rw [(r1 c).2.1, (r2 c').2.1]
    | plain c c' => rw [Bool.eq_false_iff.mpr c.2.1, Bool.eq_false_iff.mpr c'.2.1]

/-- C19: positions where either side has a wildcard do not count: objects (without references or
structures elsewhere) that agree at all the other positions do match, whatever the mode. -/
theorem C19_wildcards_ignored (h : Heap) (oc : Opc) (t : Tol) (strict : Bool) (l r : Nat)
    (w : Word) (hl : word h l 0 = some w) (hr : word h r 0 = some w)
    (hid : ¬ Named oc w) (hpos : 0 < (getAtomCount w).toNat)
    (hargs : ∀ k, 1 ≤ k → k ≤ (getAtomCount w).toNat → ∃ wl wr, word h l k = some wl ∧
      word h r k = some wr ∧ (isWild wl = true ∨ isWild wr = true ∨ (Plain wl ∧ Plain wr ∧ SameAtom t wl wr))) :
    matchObject h oc t strict ((getAtomCount w).toNat + 1) l r = some true := by
  have main : ∀ d k, 1 ≤ k → k + d = (getAtomCount w).toNat → 
      matchFrom h oc t strict (d + 1) l 0 k r k (getAtomCount w).toNat = some true := by
    intro d
    induction d with
    | zero =>
      intro k h1 h2
      obtain ⟨wl, wr, e1, e2, hc⟩ := hargs k h1 (by omega)
      rw [matchFrom, Nat.zero_add, e1, e2]
      simp only
      rw [andThen_true, if_pos (by omega)]
      refine ⟨?_, rfl⟩
      rcases hc with c | c | ⟨c, c', hs⟩
      · simp [matchWord, sameState, c]
      · obtain ⟨q1, q2, q3⟩ := (@desc_cases wr).1 c
        simp [matchWord, sameState, c, q2, q3]
      · rw [← matchAtom_iff] at hs
        obtain ⟨p1, p2, p3, p4⟩ := c
        obtain ⟨q1, q2, q3, q4⟩ := c'
        simp [matchWord, sameState, p1, p2, p3, p4, q1, q2, hs]
    | succ d ih =>
      intro k h1 h2
      obtain ⟨wl, wr, e1, e2, hc⟩ := hargs k h1 (by omega)
      rw [matchFrom, Nat.zero_add, e1, e2]
      simp only
      rw [andThen_true, if_neg (by omega)]
      refine ⟨?_, ih (k + 1) (by omega) (by omega)⟩
      rcases hc with c | c | ⟨c, c', hs⟩
      · simp [matchWord, sameState, c]
      · obtain ⟨q1, q2, q3⟩ := (@desc_cases wr).1 c
        simp [matchWord, sameState, c, q2, q3]
      · rw [← matchAtom_iff] at hs
        obtain ⟨p1, p2, p3, p4⟩ := c
        obtain ⟨q1, q2, q3, q4⟩ := c'
        simp [matchWord, sameState, p1, p2, p3, p4, q1, q2, hs]
  rw [matchObject, hl, hr]
  simp only [ne_eq, not_true_eq_false, if_false, Bool.eq_false_iff.2 fun e => hid (named_iff.1 e), Bool.false_eq_true]
  have := main ((getAtomCount w).toNat - 1) 1 (Nat.le_refl _) (by omega)
  rwa [show (getAtomCount w).toNat - 1 + 1 = (getAtomCount w).toNat by omega] at this

/-! ### A concrete heap -/

def exOpc : Opc :=
  { ent := 1, ont := 2, mdl := 3, cst := 4, imdl := 5, icst := 6, mkVal := 7, fact := 8, antiFact := 9 }
/-- The values of settings.xml: 0.00001 and (base period / 2) 50000 µs. -/
def exTol : Tol := { float := 0x3727C5AC, time := 50000 }
/-- 0, 1: entities; 2, 3: `(mk.val 0 1 (vec 1.0 VAR))` and the same with 2.0 and a wildcard;
4: `(mk.val 0 1 "*")` i.e. a wildcard value. -/
def exHeap : Heap := fun o => [
  ⟨[object 1 1, float 0], [], []⟩, ⟨[object 2 1, float 0], [], []⟩,
  ⟨[object 7 3, rPointer 0, rPointer 1, iPointer 4, object 20 2, float 0x3F800000, vlPointer 0], [0, 1], []⟩,
  ⟨[object 7 3, rPointer 0, rPointer 1, iPointer 4, object 20 2, float 0x40000000, wildcard 0], [0, 1], []⟩,
  ⟨[object 7 3, rPointer 0, rPointer 1, wildcard 0], [0, 1], []⟩][o]?

/-- The hypotheses are met by nested objects, with both verdicts in both modes. -/
example : HasArgs exHeap exOpc ∧ 0 < exTol.time ∧
    matchObject exHeap exOpc exTol false 9 2 2 = some true ∧
    matchObject exHeap exOpc exTol false 9 2 3 = some false ∧
    matchObject exHeap exOpc exTol true 9 2 4 = some true := by
  refine ⟨?_, by decide, by decide, by decide, by decide⟩
  intro o w hw
  match o with
  | 0 | 1 | 2 | 3 | 4 => simp [word, exHeap] at hw; subst hw; decide
  | n + 5 => simp [word, exHeap] at hw

end Verif.Match
