import Verif.Unify.Lemmas
namespace Verif.Unify
open Verif.Atom Verif.Words Verif.Values
open Verif.Instance (Ev)
open Verif.BindMap (BMap Slot)
open Verif.Match (Obj Heap Opc Tol isWild isVar isIPtr isRPtr Named SameAtom desc_cases)

theorem Extends.refl (m : BMap) : Extends m m := ⟨rfl, fun _ _ h => h⟩
theorem Extends.trans {a b c : BMap} (h : Extends a b) (h' : Extends b c) : Extends a c :=
  ⟨h'.len.trans h.len, fun v x hx => h'.bound v x (h.bound v x hx)⟩

theorem fits_mono {h : Heap} {oc : Opc} {t : Tol} {D : Word → Word → Prop} {m m' : BMap} (he : Extends m m')
    {P : Pair} (hf : Fits h oc t D m P) : Fits h oc t D m' P := by
  induction hf with
  | wild h1 => exact Fits.wild h1
  | varAtom h1 h2 h3 h4 => exact Fits.varAtom h1 (he.bound _ _ h2) h3 h4
  | varStr h1 h2 h3 _ ih => exact Fits.varStr h1 (he.bound _ _ h2) h3 ih
  | varObj h1 h2 h3 h4 _ ih => exact Fits.varObj h1 (he.bound _ _ h2) h3 h4 ih
  | atom h1 h2 h3 => exact Fits.atom h1 h2 h3
  | sub h1 h2 _ ih => exact Fits.sub h1 h2 ih
  | ref h1 h2 h3 h4 _ ih => exact Fits.ref h1 h2 h3 h4 ih
  | time h1 h2 h3 h4 h5 h6 => exact Fits.time h1 h2 h3 h4 h5 h6
  | data h1 h2 h3 h4 h5 => exact Fits.data h1 h2 h3 h4 h5
  | str h1 h2 h3 h4 _ ih => exact Fits.str h1 h2 h3 h4 ih
  | named h1 h2 h3 => exact Fits.named h1 h2 h3
  | obj h1 h2 h3 h4 h5 h6 _ ih => exact Fits.obj h1 h2 h3 h4 h5 h6 ih

/-- The call for a pair of places. -/
def run (h : Heap) (oc : Opc) (t : Tol) (ti : Word) (g : Nat) (m : BMap) : Pair → Option (Bool × BMap)
  | .word o w p v => matchWord h oc t ti g m o w p v
  | .str o i p j => matchStructure h oc t ti g m o i p j
  | .obj a b => matchObject h oc t ti g m a b

/-- A map fit for matching. -/
structure Map (h : Heap) (oc : Opc) (τ : Nat → Prop) (n : Nat) (m : BMap) : Prop where
  len : m.slots.length = n
  good : Good h oc m
  typed : Typed τ m

/-- The outcome of matching: `F` if it succeeds; success, if `I` holds for some values. -/
structure Outcome (h : Heap) (oc : Opc) (τ : Nat → Prop) (n : Nat) (m : BMap) (b : Bool) (m' : BMap)
    (F I : BMap → Prop) : Prop where
  map : Map h oc τ n m'
  ext : Extends m m'
  fits : b = true → F m'
  is : ∀ ms, Within m ms → I ms → b = true ∧ Within m' ms

theorem Outcome.false {h oc τ n m} {F I : BMap → Prop} (hm : Map h oc τ n m) (hi : ∀ ms, Within m ms → ¬ I ms) :
    Outcome h oc τ n m false m F I :=
  ⟨hm, Extends.refl m, fun h => (by cases h), fun ms hw h => absurd h (hi ms hw)⟩

theorem Outcome.same {h oc τ n m b} {F I : BMap → Prop} (hm : Map h oc τ n m) (hf : b = true → F m)
    (hi : ∀ ms, Within m ms → I ms → b = true) : Outcome h oc τ n m b m F I :=
  ⟨hm, Extends.refl m, hf, fun ms hw h => ⟨hi ms hw h, hw⟩⟩

theorem Outcome.mono {h oc τ n m b m'} {F I F' I' : BMap → Prop} (ho : Outcome h oc τ n m b m' F I)
    (hf : F m' → F' m') (hi : ∀ ms, Within m ms → I' ms → I ms) : Outcome h oc τ n m b m' F' I' :=
  ⟨ho.map, ho.ext, fun h => hf (ho.fits h), fun ms hw h => ho.is ms hw (hi ms hw h)⟩

/-- Matching ends with an outcome. -/
def Ends (h : Heap) (oc : Opc) (t : Tol) (ti : Word) (τ : Nat → Prop) (n : Nat) (P : Pair) (m : BMap) : Prop :=
  ∃ b m', Ev (fun g => run h oc t ti g m P = some (b, m')) ∧
    Outcome h oc τ n m b m' (fun m' => Fits h oc t (SameAtom t) m' P) (fun ms => Is h oc ms P)

theorem sameAtom_iff {t : Tol} {a b : Word} : Match.matchAtom t a b = true ↔ SameAtom t a b :=
  Verif.Match.matchAtom_iff t a b

theorem not_same_ptr {t : Tol} {a b : Word} (ha : isIPtr a = true ∨ isRPtr a = true) (hb : a ≠ b) :
    Match.matchAtom t a b = false := by
  have h1 : (a == b) = false := by simpa using hb
  simp [Match.matchAtom, h1, Verif.Match.isFloat_ptr ha]

theorem not_same_ptr' {t : Tol} {a b : Word} (hb : isIPtr b = true ∨ isRPtr b = true) (h : a ≠ b) :
    Match.matchAtom t a b = false := by
  rw [Verif.Match.matchAtom_comm]
  exact not_same_ptr hb (Ne.symm h)

/-! ## Binding a variable -/

theorem bind_slots {m : BMap} {v : Nat} {id : BitVec 8} (hs : m.slots[v]? = some (.unbound id)) (hid : id.toNat = v)
    (x : BindMap.Val) : ∃ m', BindMap.bindVariable m x (id.setWidth 16) = some m' ∧
      m'.slots = m.slots.set v (.bound x) := by
  have he : (id.setWidth 16).setWidth 8 = id := by
    apply BitVec.eq_of_toNat_eq
    have := id.isLt
    simp only [BitVec.toNat_setWidth]
    omega
  simp only [BindMap.bindVariable, BindMap.assign, he, hid, hs]
  exact ⟨_, rfl, rfl⟩

/-- Binding an unbound variable to a value that the word is. -/
theorem bind_outcome {h : Heap} {oc : Opc} {t : Tol} {τ : Nat → Prop} {n : Nat} {m m' : BMap} {v : Nat}
    {id : BitVec 8} {x : BindMap.Val} {o p : Obj} {w wp : Word}
    (hm : Map h oc τ n m) (hs : m.slots[v]? = some (.unbound id))
    (hm' : m'.slots = m.slots.set v (.bound x)) (hx : GoodSlot h oc v (.bound x))
    (hτ : ∀ r, x = .obj r → τ v) (hv : (asIndex wp).toNat = v) (hvar : isVar wp)
    (hfit : m'.slots[v]? = some (.bound x) → Fits h oc t (SameAtom t) m' (.word o w p wp))
    (hal : ∀ y, IsValue o w y → Alike x y) :
    Outcome h oc τ n m true m' (fun m' => Fits h oc t (SameAtom t) m' (.word o w p wp))
      (fun ms => Is h oc ms (.word o w p wp)) := by
  have hlt : v < m.slots.length := (List.getElem?_eq_some_iff.1 hs).1
  have hself : m'.slots[v]? = some (.bound x) := by rw [hm']; simp [hlt]
  have hother : ∀ u : Nat, u ≠ v → m'.slots[u]? = m.slots[u]? := by
    intro u hu
    rw [hm', List.getElem?_set_ne (Ne.symm hu)]
  refine ⟨⟨?_, ?_, ?_⟩, ⟨?_, ?_⟩, fun _ => hfit hself, ?_⟩
  · rw [hm', List.length_set, hm.len]
  · intro u s hu
    by_cases huv : u = v
    · subst huv
      obtain rfl := Option.some.inj (hself.symm.trans hu)
      exact hx
    · rw [hother u huv] at hu
      exact hm.good u s hu
  · intro u r hu
    by_cases huv : u = v
    · subst huv
      have := Option.some.inj (hself.symm.trans hu)
      cases this
      exact hτ r rfl
    · rw [hother u huv] at hu
      exact hm.typed u r hu
  · rw [hm', List.length_set]
  · intro u y hu
    by_cases huv : u = v
    · subst huv
      rw [hs] at hu; cases hu
    · rw [hother u huv]; exact hu
  · intro ms hw hi
    refine ⟨rfl, fun u y hu => ?_⟩
    by_cases huv : u = v
    · subst huv
      obtain ⟨d1, d2, d3, d4⟩ := @desc_cases wp
      have := Option.some.inj (hself.symm.trans hu)
      cases this
      cases hi with
      | wild h => rw [(d2 hvar).1] at h; cases h
      | var _ h2 h3 => rw [hv] at h2; exact ⟨_, h2, hal _ h3⟩
      | atom h => exact absurd hvar h.2.1
      | sub _ h => rw [(d2 hvar).2.1] at h; cases h
      | ref _ h => rw [(d2 hvar).2.2] at h; cases h
    · rw [hother u huv] at hu
      exact hw u y hu

/-! ## The words of a structure or object -/

theorem loop {h : Heap} {oc : Opc} {t : Tol} {ti : Word} {τ : Nat → Prop} {n : Nat} {o p : Obj} {base j arity : Nat}
    (hw : ∀ k, 1 ≤ k → k ≤ arity → ∃ a b, o.code[base + k]? = some a ∧ p.code[j + k]? = some b ∧
      ∀ m, Map h oc τ n m → Ends h oc t ti τ n (.word o a p b) m) :
    ∀ d k m, k + d = arity → 1 ≤ k → Map h oc τ n m →
      ∃ b m', Ev (fun g => matchFrom h oc t ti g m o base k p (j + k) arity = some (b, m')) ∧
        Outcome h oc τ n m b m'
          (fun m' => ∀ i x y, k ≤ i → i ≤ arity → o.code[base + i]? = some x → p.code[j + i]? = some y →
            Fits h oc t (SameAtom t) m' (.word o x p y))
          (fun ms => ∀ i x y, k ≤ i → i ≤ arity → o.code[base + i]? = some x → p.code[j + i]? = some y →
            Is h oc ms (.word o x p y)) := by
  intro d
  induction d with
  | zero =>
    intro k m hk h1 hm
    obtain ⟨a, b, ha, hb, hE⟩ := hw k h1 (by omega)
    obtain ⟨r, m', hev, ho⟩ := hE m hm
    refine ⟨r, m', hev.succ.mono fun g hg => ?_, ho.mono (fun hf i x y hi1 hi2 hx hy => ?_) fun ms _ hi => ?_⟩
    · obtain ⟨g', rfl, hg'⟩ := hg
      simp only [run] at hg'
      simp only [matchFrom, ha, hb, hg', Option.bind_some, if_pos (show k = arity by omega)]
      cases r <;> rfl
    · obtain rfl : i = k := by omega
      obtain rfl := Option.some.inj (ha.symm.trans hx)
      obtain rfl := Option.some.inj (hb.symm.trans hy)
      exact hf
    · exact hi k a b (Nat.le_refl _) (by omega) ha hb
  | succ d ih =>
    intro k m hk h1 hm
    obtain ⟨a, b, ha, hb, hE⟩ := hw k h1 (by omega)
    obtain ⟨r, m1, hev, ho⟩ := hE m hm
    cases r with
    | false =>
      refine ⟨false, m1, hev.succ.mono fun g hg => ?_, ho.map, ho.ext, fun h => (by cases h), fun ms hwi hi => ?_⟩
      · obtain ⟨g', rfl, hg'⟩ := hg
        simp only [run] at hg'
        simp only [matchFrom, ha, hb, hg', Option.bind_some, if_true]
      · exact absurd (ho.is ms hwi (hi k a b (Nat.le_refl _) (by omega) ha hb)).1 (by decide)
    | true =>
      obtain ⟨r2, m2, hev2, ho2⟩ := ih (k + 1) m1 (by omega) (by omega) ho.map
      refine ⟨r2, m2, (hev.and hev2).succ.mono fun g hg => ?_, ho2.map, ho.ext.trans ho2.ext,
        fun hr i x y hi1 hi2 hx hy => ?_, fun ms hwi hi => ?_⟩
      · obtain ⟨g', rfl, hg1, hg2⟩ := hg
        simp only [run] at hg1
        simp only [matchFrom, ha, hb, hg1, Option.bind_some, Bool.true_eq_false, if_false]
        rw [if_neg (by omega)]
        exact hg2
      · by_cases hik : i = k
        · subst hik
          obtain rfl := Option.some.inj (ha.symm.trans hx)
          obtain rfl := Option.some.inj (hb.symm.trans hy)
          exact fits_mono ho2.ext (ho.fits rfl)
        · exact ho2.fits hr i x y (by omega) hi2 hx hy
      · have h3 := ho.is ms hwi (hi k a b (Nat.le_refl _) (by omega) ha hb)
        exact ho2.is ms h3.2 fun i x y hi1 hi2 => hi i x y (by omega) hi2

/-! ## One word -/

theorem leaf_flags {w : Word} (h : Leaf w) :
    isWild w = false ∧ isVar w = false ∧ isIPtr w = false ∧ isRPtr w = false := by
  simpa [Leaf] using h

theorem iptr_flags {w : Word} (h : isIPtr w = true) :
    isWild w = false ∧ isVar w = false ∧ isRPtr w = false := desc_cases.2.2.1 h
theorem rptr_flags {w : Word} (h : isRPtr w = true) :
    isWild w = false ∧ isVar w = false ∧ isIPtr w = false := desc_cases.2.2.2 h
theorem var_flags {w : Word} (h : isVar w = true) :
    isWild w = false ∧ isIPtr w = false ∧ isRPtr w = false := desc_cases.2.1 h
theorem wild_flags {w : Word} (h : isWild w = true) :
    isVar w = false ∧ isIPtr w = false ∧ isRPtr w = false := desc_cases.1 h

/-- What a variable is, under values in which it is bound as in `m`. -/
theorem is_var {h : Heap} {oc : Opc} {m ms : BMap} {o p : Obj} {w v : Word} {x : BindMap.Val} (hv : isVar v)
    (hs : m.slots[(asIndex v).toNat]? = some (.bound x)) (hw : Within m ms) (hi : Is h oc ms (.word o w p v)) :
    ∃ y, Alike x y ∧ IsValue o w y := by
  obtain ⟨f1, f2, f3⟩ := var_flags hv
  obtain ⟨y, hy, ha⟩ := hw _ _ hs
  cases hi with
  | wild h => rw [f1] at h; cases h
  | var _ h2 h3 =>
    rw [hy] at h2
    cases h2
    exact ⟨y, ha, h3⟩
  | atom h => exact absurd hv h.2.1
  | sub _ h => rw [f2] at h; cases h
  | ref _ h => rw [f3] at h; cases h

/-- What is exactly the same fits. -/
theorem fits_of_is {h : Heap} {oc : Opc} {t : Tol} (ht : 0 < t.time) {m : BMap} {P : Pair} (hi : Is h oc m P)
    (hg : Ground h oc P.place) (hp : Ground h oc P.pat) : Fits h oc t (SameAtom t) m P := by
  unfold Ground at hg hp
  induction hi with
  | wild h1 => exact Fits.wild h1
  | @var o w p v x h1 h2 h3 =>
    obtain ⟨f1, f2, f3⟩ := var_flags h1
    cases hp with
    | word _ _ h => exact absurd h1 h.2.1
    | sub h _ => rw [f2] at h; cases h
    | ref h _ _ => rw [f3] at h; cases h
  | atom h1 => exact Fits.atom h1 h1 (Or.inl rfl)
  | @sub o w p v h1 h2 _ ih =>
    refine Fits.sub h1 h2 (ih ?_ ?_)
    · cases hg with
      | word h _ _ => exact absurd h1 h
      | sub _ h => exact h
      | ref h _ _ => rw [(iptr_flags h1).2.2] at h; cases h
    · cases hp with
      | word h _ _ => exact absurd h2 h
      | sub _ h => exact h
      | ref h _ _ => rw [(iptr_flags h2).2.2] at h; cases h
  | @ref o w p v a b h1 h2 h3 h4 _ ih =>
    refine Fits.ref h1 h2 h3 h4 (ih ?_ ?_)
    · cases hg with
      | word _ h _ => exact absurd h1 h
      | sub h _ => rw [(iptr_flags h).2.2] at h1; cases h1
      | ref _ h h' => rw [h3] at h; cases h; exact h'
    · cases hp with
      | word _ h _ => exact absurd h2 h
      | sub h _ => rw [(iptr_flags h).2.2] at h2; cases h2
      | ref _ h h' => rw [h4] at h; cases h; exact h'
  | @data o i p j w h1 h2 h3 h4 =>
    cases hg with
    | str g1 g2 => rw [h1] at g1; cases g1; rw [h3] at g2; cases g2
    | data g1 g2 g3 g4 g5 =>
      rw [h1] at g1
      cases g1
      have hget : ∀ k, 1 ≤ k → k ≤ count w → ∃ a, o.code[i + k]? = some a ∧ p.code[j + k]? = some a := by
        intro k k1 k2
        have ha := List.getElem?_eq_getElem (show i + k < o.code.length by omega)
        exact ⟨_, ha, by rw [← h4 k k1 k2, ha]⟩
      by_cases hc : getDescriptor w = 0xC7
      · have h2c := g4 hc
        obtain ⟨a, ha, hb⟩ := hget 1 (by omega) (by omega)
        obtain ⟨a', ha', hb'⟩ := hget 2 (by omega) (by omega)
        refine Fits.time h1 h2 hc (a := (a.setWidth 64 <<< 32) ||| a'.setWidth 64)
          (b := (a.setWidth 64 <<< 32) ||| a'.setWidth 64) ?_ ?_ ?_
        · simp [getInt64, Words.get, ha, ha', Nat.add_assoc]
        · simp [getInt64, Words.get, hb, hb', Nat.add_assoc]
        · simpa using ht
      · refine Fits.data h1 h2 h3 hc fun k k1 k2 => ?_
        obtain ⟨a, ha, hb⟩ := hget k k1 k2
        exact ⟨a, a, ha, hb, Or.inl rfl⟩
  | @str o i p j w h1 h2 h3 h4 ih =>
    cases hg with
    | data g1 g2 => rw [h1] at g1; cases g1; rw [h3] at g2; cases g2
    | str g1 _ _ g4 _ g6 =>
      rw [h1] at g1
      cases g1
      cases hp with
      | data p1 p2 => rw [h2] at p1; cases p1; rw [h3] at p2; cases p2
      | str p1 _ _ p4 _ p6 =>
        rw [h2] at p1
        cases p1
        refine Fits.str h1 h2 h3 (fun k k1 k2 => ⟨_, _,
          List.getElem?_eq_getElem (show i + k < o.code.length by omega),
          List.getElem?_eq_getElem (show j + k < p.code.length by omega)⟩) fun k a b k1 k2 ha hb => ?_
        exact ih k a b k1 k2 ha hb (g6 k a k1 k2 ha) (p6 k b k1 k2 hb)
  | named h1 h2 h3 => exact Fits.named h1 h2 h3
  | @obj o p a b w h1 h2 h3 h4 h5 h6 ih =>
    cases hg with
    | named g1 g2 g3 => rw [h1] at g1; cases g1; rw [h3] at g2; cases g2; exact absurd g3 h5
    | obj g1 g2 _ _ g5 g6 =>
      rw [h1] at g1
      cases g1
      rw [h3] at g2
      cases g2
      cases hp with
      | named p1 p2 p3 => rw [h2] at p1; cases p1; rw [h4] at p2; cases p2; exact absurd p3 h5
      | obj p1 p2 _ _ p5 p6 =>
        rw [h2] at p1
        cases p1
        rw [h4] at p2
        cases p2
        refine Fits.obj h1 h2 h3 h4 h5 (fun k k1 k2 => ⟨_, _,
          List.getElem?_eq_getElem (show k < o.code.length by omega),
          List.getElem?_eq_getElem (show k < p.code.length by omega)⟩) fun k a b k1 k2 ha hb => ?_
        exact ih k a b k1 k2 ha hb (g6 k a k1 k2 ha) (p6 k b k1 k2 hb)

/-- Matching a word with a bound or unbound variable. -/
theorem var_ends {h : Heap} {oc : Opc} {t : Tol} (ht : 0 < t.time) {ti : Word} (hti : count ti = 2) {τ : Nat → Prop}
    {n : Nat} {o p : Obj} {w v : Word} (hg : Ground h oc (.word o w)) (hv : isVar v) (hn : (asIndex v).toNat < n)
    (hsub : isIPtr w → ∀ p j, Pattern h oc ti n (.str p j) → Safe h oc τ (.str o (asIndex w).toNat p j) →
      ∀ m, Map h oc τ n m → Ends h oc t ti τ n (.str o (asIndex w).toNat p j) m)
    (href : isRPtr w → ∀ a, o.refs[(asIndex w).toNat]? = some a → ∀ b, Pattern h oc ti n (.obj b) →
      Safe h oc τ (.obj a b) → ∀ m, Map h oc τ n m → Ends h oc t ti τ n (.obj a b) m)
    (hsafe : Safe h oc τ (.word o w p v)) {m : BMap} (hm : Map h oc τ n m) :
    ∃ b m' s, m.slots[(asIndex v).toNat]? = some s ∧
      Ev (fun g => matchValue h oc t ti g m o w s = some (b, m')) ∧
      Outcome h oc τ n m b m' (fun m' => Fits h oc t (SameAtom t) m' (.word o w p v))
        (fun ms => Is h oc ms (.word o w p v)) := by
  obtain ⟨hτ, hstr⟩ := hsafe o w p v Inside.here hv
  have hlt : (asIndex v).toNat < m.slots.length := by rw [hm.len]; exact hn
  have hs := List.getElem?_eq_getElem hlt
  generalize m.slots[(asIndex v).toNat] = s at hs
  have hgs := hm.good _ _ hs
  cases s with
  | null => exact hgs.elim
  | unbound id =>
    have hid : id.toNat = (asIndex v).toNat := hgs
    have hg' := hg
    unfold Ground at hg'
    cases hg' with
    | word h1 h2 h3 =>
      obtain ⟨m', hb, hm'⟩ := bind_slots hs hid (.atom w)
      refine ⟨true, m', _, hs, (Ev.of fun _ => trivial : Ev fun _ => True).succ.mono fun g hg => ?_,
        bind_outcome hm hs hm' h3 (fun r hr => by cases hr) rfl hv
          (fun hx => Fits.varAtom hv hx h3 (Or.inl rfl)) fun y hy => ?_⟩
      · obtain ⟨g', rfl, -⟩ := hg
        have d4 : getDescriptor w ≠ 0x84 := fun h => h1 (iptr_iff.2 h)
        have d5 : getDescriptor w ≠ 0x85 := fun h => h2 (rptr_iff.2 h)
        have d2 : getDescriptor w ≠ 0x82 := fun h => h3.1 (by simp [isWild, h])
        simp only [matchValue, if_neg d4, if_neg d5, if_neg d2, hb, Option.map_some]
      · cases y with
        | atom x => exact hy.2
        | struct c => exact absurd hy.1 h1
        | obj r => exact absurd hy.1 h2
    | sub h1 h2 =>
      obtain ⟨hnr, hsz⟩ := hstr h1
      obtain ⟨c, hev, hl, hgc, hnc⟩ := copy_ground h2 hnr hsz
      obtain ⟨m', hb, hm'⟩ := bind_slots hs hid (.struct c)
      refine ⟨true, m', _, hs, hev.succ.mono fun g hg => ?_,
        bind_outcome hm hs hm' ⟨hgc, hnc⟩ (fun r hr => by cases hr) rfl hv
          (fun hx => Fits.varStr hv hx h1 ?_) fun y hy => ?_⟩
      · obtain ⟨g', rfl, hg'⟩ := hg
        simp only [matchValue, if_pos (iptr_iff.1 h1), hg', Option.bind_some, hb, Option.map_some]
      · exact fits_of_is ht (is_of_look h2 c 0 hl hnr) h2 hgc
      · obtain ⟨f1, f2, f3⟩ := iptr_flags h1
        cases y with
        | atom x => exact absurd h1 hy.1.2.2.1
        | struct d => exact fun q => (hl q).trans (hy.2 q).symm
        | obj r => have := hy.1; rw [f3] at this; cases this
    | @ref _ _ a h1 h2 h3 =>
      obtain ⟨f1, f2, f3⟩ := rptr_flags h1
      obtain ⟨m', hb, hm'⟩ := bind_slots hs hid (.obj a)
      refine ⟨true, m', _, hs, (Ev.of fun _ => trivial : Ev fun _ => True).succ.mono fun g hg => ?_,
        bind_outcome hm hs hm' h3 (fun r hr => hτ.1 h1) rfl hv
          (fun hx => Fits.varObj hv hx h1 h2 ?_) fun y hy => ?_⟩
      · obtain ⟨g', rfl, -⟩ := hg
        have d5 := rptr_iff.1 h1
        have d4 : getDescriptor w ≠ 0x84 := by rw [d5]; decide
        simp only [matchValue, if_neg d4, if_pos d5, h2, Option.bind_some, hb, Option.map_some]
      · exact fits_of_is ht (is_refl h3) h3 h3
      · cases y with
        | atom x => exact absurd h1 hy.1.2.2.2
        | struct d => have := hy.1; rw [f3] at this; cases this
        | obj r => exact Option.some.inj (h2.symm.trans hy.2)
  | bound x =>
    cases x with
    | atom x =>
      have hx : Leaf x := hgs
      refine ⟨Match.matchAtom t w x, m, _, hs, (Ev.of fun _ => trivial : Ev fun _ => True).succ.mono fun g hg => ?_,
        Outcome.same hm (fun hb => ?_) fun ms hw hi => ?_⟩
      · obtain ⟨g', rfl, -⟩ := hg
        simp only [matchValue]
      · refine Fits.varAtom hv hs ?_ (sameAtom_iff.1 hb)
        have hg' := hg
        unfold Ground at hg'
        cases hg' with
        | word _ _ h => exact h
        | sub h _ =>
          rw [not_same_ptr (Or.inl h) (by rintro rfl; exact hx.2.2.1 h)] at hb; cases hb
        | ref h _ _ =>
          rw [not_same_ptr (Or.inr h) (by rintro rfl; exact hx.2.2.2 h)] at hb; cases hb
      · obtain ⟨y, ha, hy⟩ := is_var hv hs hw hi
        cases y with
        | atom y =>
          have : x = y := ha
          subst this
          exact sameAtom_iff.2 (Or.inl hy.2)
        | struct d => exact ha.elim
        | obj r => exact ha.elim
    | struct c =>
      obtain ⟨hgc, hnc⟩ := hgs
      by_cases hw : isIPtr w
      · obtain ⟨b, m', hev, ho⟩ := hsub hw ⟨c, [], []⟩ 0 (pattern_of_ground hti hgc) (safe_of_ground hgc) m hm
        refine ⟨b, m', _, hs, hev.succ.mono fun g hg => ?_, ho.mono (fun hf => ?_) fun ms hwi hi => ?_⟩
        · obtain ⟨g', rfl, hg'⟩ := hg
          simp only [run] at hg'
          have d4 : ¬ getDescriptor w ≠ 0x84 := fun h => h (iptr_iff.1 hw)
          simp only [matchValue, if_neg d4, hg']
        · exact Fits.varStr hv (ho.ext.bound _ _ hs) hw hf
        · obtain ⟨y, ha, hy⟩ := is_var hv hs hwi hi
          cases y with
          | atom y => exact ha.elim
          | obj r => exact ha.elim
          | struct d =>
            have hg' := hg
            unfold Ground at hg'
            cases hg' with
            | word h _ _ => exact absurd hw h
            | sub _ h2 => exact is_of_look h2 c 0 (fun q => (ha q).trans (hy.2 q)) (hstr hw).1
            | ref h _ _ => rw [(iptr_flags hw).2.2] at h; cases h
      · refine ⟨false, m, _, hs, (Ev.of fun _ => trivial : Ev fun _ => True).succ.mono fun g hg => ?_,
          Outcome.false hm fun ms hwi hi => ?_⟩
        · obtain ⟨g', rfl, -⟩ := hg
          have d4 : getDescriptor w ≠ 0x84 := fun h => hw (iptr_iff.2 h)
          simp only [matchValue, if_pos d4]
        · obtain ⟨y, ha, hy⟩ := is_var hv hs hwi hi
          cases y with
          | atom y => exact ha.elim
          | obj r => exact ha.elim
          | struct d => exact hw hy.1
    | obj r =>
      have hw : isRPtr w := hτ.2 (hm.typed _ _ hs)
      have hg' := hg
      unfold Ground at hg'
      cases hg' with
      | word _ h _ => exact absurd hw h
      | sub h _ => rw [(iptr_flags h).2.2] at hw; cases hw
      | @ref _ _ a h1 h2 h3 =>
        have hgr : Ground h oc (.obj r) := hgs
        obtain ⟨b, m', hev, ho⟩ := href hw a h2 r (pattern_of_ground hti hgr) (safe_of_ground hgr) m hm
        refine ⟨b, m', _, hs, hev.succ.mono fun g hg => ?_, ho.mono (fun hf => ?_) fun ms hwi hi => ?_⟩
        · obtain ⟨g', rfl, hg'⟩ := hg
          simp only [run] at hg'
          simp only [matchValue, h2, Option.bind_some, hg']
        · exact Fits.varObj hv (ho.ext.bound _ _ hs) hw h2 hf
        · obtain ⟨y, ha, hy⟩ := is_var hv hs hwi hi
          cases y with
          | atom y => exact ha.elim
          | struct d => exact ha.elim
          | obj r' =>
            have : r = r' := ha
            subst this
            have := hy.2
            rw [h2] at this
            cases this
            exact is_refl h3

/-- Matching a word with a word. -/
theorem word_ends {h : Heap} {oc : Opc} {t : Tol} (ht : 0 < t.time) {ti : Word} (hti : count ti = 2) {τ : Nat → Prop}
    {n : Nat} {o p : Obj} {w v : Word} (hg : Ground h oc (.word o w)) (hp : Pattern h oc ti n (.word p v))
    (hsub : isIPtr w → ∀ p j, Pattern h oc ti n (.str p j) → Safe h oc τ (.str o (asIndex w).toNat p j) →
      ∀ m, Map h oc τ n m → Ends h oc t ti τ n (.str o (asIndex w).toNat p j) m)
    (href : isRPtr w → ∀ a, o.refs[(asIndex w).toNat]? = some a → ∀ b, Pattern h oc ti n (.obj b) →
      Safe h oc τ (.obj a b) → ∀ m, Map h oc τ n m → Ends h oc t ti τ n (.obj a b) m)
    (hsafe : Safe h oc τ (.word o w p v)) {m : BMap} (hm : Map h oc τ n m) :
    Ends h oc t ti τ n (.word o w p v) m := by
  have hE : Ev fun _ : Nat => True := Ev.of fun _ => trivial
  have hwv : isWild w = false ∧ isVar w = false := by
    unfold Ground at hg
    cases hg with
    | word _ _ h => exact ⟨(leaf_flags h).1, (leaf_flags h).2.1⟩
    | sub h _ => exact ⟨(iptr_flags h).1, (iptr_flags h).2.1⟩
    | ref h _ _ => exact ⟨(rptr_flags h).1, (rptr_flags h).2.1⟩
  have h0 : (isWild w || isVar w) = false := by rw [hwv.1, hwv.2]; rfl
  by_cases hv : isVar v = true
  · have hn : (asIndex v).toNat < n := by
      obtain ⟨f1, f2, f3⟩ := var_flags hv
      unfold Pattern at hp
      cases hp with
      | word _ _ h => exact h hv
      | sub h _ => rw [f2] at h; cases h
      | ref h _ _ => rw [f3] at h; cases h
    obtain ⟨b, m', s, hs, hev, ho⟩ := var_ends ht hti hg hv hn hsub href hsafe hm
    refine ⟨b, m', hev.succ.mono fun g hg => ?_, ho⟩
    obtain ⟨g', rfl, hg'⟩ := hg
    simp only [run, matchWord, h0, hv, hs, hg', Bool.false_eq_true, if_true, if_false]
  · by_cases hvw : isWild v = true
    · refine ⟨true, m, hE.succ.mono fun g hg => ?_, Outcome.same hm (fun _ => Fits.wild hvw) fun _ _ _ => rfl⟩
      obtain ⟨g', rfl, -⟩ := hg
      simp only [run, matchWord, h0, hv, hvw, Bool.false_eq_true, if_true, if_false]
    · have is_inv : ∀ ms, Is h oc ms (.word o w p v) → (Leaf w ∧ w = v) ∨
          (isIPtr w ∧ isIPtr v ∧ Is h oc ms (.str o (asIndex w).toNat p (asIndex v).toNat)) ∨
          (isRPtr w ∧ isRPtr v ∧ ∃ a b, o.refs[(asIndex w).toNat]? = some a ∧
            p.refs[(asIndex v).toNat]? = some b ∧ Is h oc ms (.obj a b)) := by
        intro ms hi
        cases hi with
        | wild h => exact absurd h hvw
        | var h _ _ => exact absurd h hv
        | atom h => exact Or.inl ⟨h, rfl⟩
        | sub h1 h2 h3 => exact Or.inr (Or.inl ⟨h1, h2, h3⟩)
        | ref h1 h2 h3 h4 h5 => exact Or.inr (Or.inr ⟨h1, h2, _, _, h3, h4, h5⟩)
      by_cases hw : isIPtr w = true
      · obtain ⟨f1, f2, f3⟩ := iptr_flags hw
        by_cases hvp : isIPtr v = true
        · have hps : Pattern h oc ti n (.str p (asIndex v).toNat) := by
            unfold Pattern at hp ⊢
            cases hp with
            | word h _ _ => exact absurd hvp h
            | sub _ h => exact h
            | ref h _ _ => rw [(iptr_flags hvp).2.2] at h; cases h
          obtain ⟨b, m', hev, ho⟩ := hsub hw p _ hps
            (fun o' w' p' v' hin => hsafe o' w' p' v' (Inside.sub hw hvp hin)) m hm
          refine ⟨b, m', hev.succ.mono fun g hg => ?_, ho.mono (fun hf => Fits.sub hw hvp hf) fun ms _ hi => ?_⟩
          · obtain ⟨g', rfl, hg'⟩ := hg
            simp only [run] at hg'
            simp only [run, matchWord, h0, hv, hvw, hw, hvp, hg', Bool.false_eq_true, if_true, if_false]
          · rcases is_inv ms hi with h | h | h
            · exact absurd hw h.1.2.2.1
            · exact h.2.2
            · rw [f3] at h; cases h.1
        · refine ⟨false, m, hE.succ.mono fun g hg => ?_, Outcome.false hm fun ms _ hi => ?_⟩
          · obtain ⟨g', rfl, -⟩ := hg
            simp only [run, matchWord, h0, hv, hvw, hw, hvp, Bool.false_eq_true, if_true, if_false]
          · rcases is_inv ms hi with h | h | h
            · exact h.1.2.2.1 hw
            · exact hvp h.2.1
            · rw [f3] at h; cases h.1
      · by_cases hr : isRPtr w = true
        · obtain ⟨a, ha⟩ : ∃ a, o.refs[(asIndex w).toNat]? = some a := by
            unfold Ground at hg
            cases hg with
            | word _ h _ => exact absurd hr h
            | sub h _ => exact absurd h hw
            | ref _ h _ => exact ⟨_, h⟩
          by_cases hvp : isRPtr v = true
          · obtain ⟨b, hb, hpb⟩ : ∃ b, p.refs[(asIndex v).toNat]? = some b ∧ Pattern h oc ti n (.obj b) := by
              unfold Pattern at hp ⊢
              cases hp with
              | word _ h _ => exact absurd hvp h
              | sub h _ => rw [(iptr_flags h).2.2] at hvp; cases hvp
              | ref _ h h' => exact ⟨_, h, h'⟩
            obtain ⟨r, m', hev, ho⟩ := href hr a ha b hpb
              (fun o' w' p' v' hin => hsafe o' w' p' v' (Inside.ref hr hvp ha hb hin)) m hm
            refine ⟨r, m', hev.succ.mono fun g hg => ?_, ho.mono (fun hf => Fits.ref hr hvp ha hb hf) fun ms _ hi => ?_⟩
            · obtain ⟨g', rfl, hg'⟩ := hg
              simp only [run] at hg'
              simp only [run, matchWord, h0, hv, hvw, hw, hr, hvp, ha, hb, hg', Bool.false_eq_true, if_true, if_false]
            · rcases is_inv ms hi with h | h | h
              · exact absurd hr h.1.2.2.2
              · exact absurd h.1 hw
              · obtain ⟨_, _, a', b', ha', hb', hi'⟩ := h
                rw [ha] at ha'; cases ha'
                rw [hb] at hb'; cases hb'
                exact hi'
          · refine ⟨false, m, hE.succ.mono fun g hg => ?_, Outcome.false hm fun ms _ hi => ?_⟩
            · obtain ⟨g', rfl, -⟩ := hg
              simp only [run, matchWord, h0, hv, hvw, hw, hr, hvp, Bool.false_eq_true, if_true, if_false]
            · rcases is_inv ms hi with h | h | h
              · exact h.1.2.2.2 hr
              · exact absurd h.1 hw
              · exact hvp h.2.1
        · have hl : Leaf w := ⟨by simp [hwv.1], by simp [hwv.2], hw, hr⟩
          refine ⟨Match.matchAtom t w v, m, hE.succ.mono fun g hg => ?_,
            Outcome.same hm (fun hb => ?_) fun ms _ hi => ?_⟩
          · obtain ⟨g', rfl, -⟩ := hg
            simp only [run, matchWord, h0, hv, hvw, hw, hr, Bool.false_eq_true, if_false]
          · refine Fits.atom hl ⟨hvw, hv, fun h => ?_, fun h => ?_⟩ (sameAtom_iff.1 hb)
            · rw [not_same_ptr' (Or.inl h) (by rintro rfl; exact hw h)] at hb; cases hb
            · rw [not_same_ptr' (Or.inr h) (by rintro rfl; exact hr h)] at hb; cases hb
          · rcases is_inv ms hi with h | h | h
            · exact sameAtom_iff.2 (Or.inl h.2)
            · exact absurd h.1 hw
            · exact absurd h.1 hr

end Verif.Unify
