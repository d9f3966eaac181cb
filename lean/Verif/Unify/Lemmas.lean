import Verif.Unify.Spec
namespace Verif.Unify
open Verif.Atom Verif.Words Verif.Values
open Verif.Instance (Ev)
open Verif.BindMap (BMap Slot)
open Verif.Match (Obj Heap Opc Tol isWild isVar isIPtr isRPtr Named SameAtom)

theorem iptr_iff {w : Word} : isIPtr w = true ↔ getDescriptor w = 0x84 := by simp [isIPtr]
theorem rptr_iff {w : Word} : isRPtr w = true ↔ getDescriptor w = 0x85 := by simp [isRPtr]
theorem var_iff {w : Word} : isVar w = true ↔ getDescriptor w = 0x86 := by simp [isVar]

theorem kinds {w : Word} : Leaf w ∨ isWild w = true ∨ isVar w = true ∨ isIPtr w = true ∨ isRPtr w = true := by
  unfold Leaf
  cases isWild w <;> cases isVar w <;> cases isIPtr w <;> cases isRPtr w <;> simp

theorem raw_ne {w : Word} (h : raw w = true) : getDescriptor w ≠ 0x84 := by
  intro hd
  simp [raw, hd] at h

/-! ## Ground places -/

theorem pattern_of_ground {h : Heap} {oc : Opc} {ti : Word} (hti : count ti = 2) {n : Nat} {X : Place}
    (hg : Ground h oc X) : Pattern h oc ti n X := by
  unfold Ground at hg
  induction hg with
  | word h1 h2 h3 => exact Ok.word h1 h2 fun hv => absurd hv h3.2.1
  | sub h1 _ ih => exact Ok.sub h1 ih
  | ref h1 h2 _ ih => exact Ok.ref h1 h2 ih
  | data h1 h2 h3 h4 h5 => exact Ok.data h1 h2 h3 h4 h5
  | @str o i w h1 h2 h3 h4 h5 h6 ih =>
    refine Ok.str h1 h2 h3 h4 ?_ ih
    rintro ⟨hw, hv⟩
    rw [h1] at hw
    obtain rfl : w = ti := by simpa using hw
    obtain ⟨a, ha, hva⟩ := hv 1 (by omega) (by omega)
    have := h6 1 a (by omega) (by omega) ha
    obtain ⟨d1, d2, d3, d4⟩ := @Verif.Match.desc_cases a
    cases this with
    | word _ _ h => exact h.2.1 hva
    | sub h _ => rw [(d2 hva).2.1] at h; cases h
    | ref h _ _ => rw [(d2 hva).2.2] at h; cases h
  | named h1 h2 h3 => exact Ok.named h1 h2 h3
  | obj h1 h2 h3 h4 h5 _ ih => exact Ok.obj h1 h2 h3 h4 h5 ih

theorem inside_ok {h : Heap} {oc : Opc} {V : Word → Prop} {H : Obj → Nat → Prop} {P Q : Pair}
    (hi : Inside h oc P Q) (hk : Ok h oc V H P.pat) : Ok h oc V H Q.pat := by
  induction hi with
  | here => exact hk
  | @sub o w p v Q h1 h2 _ ih =>
    refine ih ?_
    obtain ⟨d1, d2, d3, d4⟩ := @Verif.Match.desc_cases v
    cases hk with
    | word h _ _ => exact absurd h2 h
    | sub _ h => exact h
    | ref h _ _ => rw [(d3 h2).2.2] at h; cases h
  | @ref o w p v a b Q h1 h2 h3 h4 _ ih =>
    refine ih ?_
    obtain ⟨d1, d2, d3, d4⟩ := @Verif.Match.desc_cases v
    cases hk with
    | word _ h _ => exact absurd h2 h
    | sub h _ => rw [(d3 h).2.2] at h2; cases h2
    | ref _ h5 h =>
      rw [h4] at h5
      obtain rfl := Option.some.inj h5
      exact h
  | @str o i p j w k a b Q h1 h2 h3 h4 h5 h6 h7 _ ih =>
    refine ih ?_
    cases hk with
    | data g1 g2 =>
      rw [h2] at g1
      obtain rfl := Option.some.inj g1
      rw [h3] at g2; cases g2
    | str g1 _ _ _ _ g =>
      rw [h2] at g1
      obtain rfl := Option.some.inj g1
      exact g k b h4 h5 h7
  | @obj o p x y w k a b Q h1 h2 h3 h4 h5 h6 h7 h8 h9 _ ih =>
    refine ih ?_
    cases hk with
    | named g1 g2 g3 =>
      rw [h2] at g1
      obtain rfl := Option.some.inj g1
      rw [h4] at g2
      obtain rfl := Option.some.inj g2
      exact absurd g3 h5
    | obj g1 g2 _ _ _ g =>
      rw [h2] at g1
      obtain rfl := Option.some.inj g1
      rw [h4] at g2
      obtain rfl := Option.some.inj g2
      exact g k b h6 h7 h9

/-- A pattern without variables is safe. -/
theorem safe_of_ground {h : Heap} {oc : Opc} {τ : Nat → Prop} {P : Pair} (hg : Ground h oc P.pat) :
    Safe h oc τ P := by
  intro o w p v hi hv
  have := inside_ok hi hg
  obtain ⟨d1, d2, d3, d4⟩ := @Verif.Match.desc_cases v
  cases this with
  | word _ _ h => exact absurd hv h.2.1
  | sub h _ => rw [(d2 hv).2.1] at h; cases h
  | ref h _ _ => rw [(d2 hv).2.2] at h; cases h

theorem whole_of_ground {h : Heap} {oc : Opc} {X : Place} (hg : Ground h oc X) :
    match X with
    | .str o i => Whole o.code i ∧ Values.Plain o.code i
    | .word o a => isIPtr a → Whole o.code (asIndex a).toNat ∧ Values.Plain o.code (asIndex a).toNat
    | .obj _ => True := by
  unfold Ground at hg
  induction hg with
  | word h1 h2 h3 => exact fun h => absurd h h1
  | sub h1 _ ih => exact fun _ => ih
  | ref h1 h2 _ ih =>
    intro h
    rw [(Verif.Match.desc_cases.2.2.1 h).2.2] at h1; cases h1
  | @data o i w h1 h2 h3 h4 h5 =>
    refine ⟨Whole.mk h1 (raw_ne h2) h3 fun h => ?_, Plain.mk h1 (fun _ k a k1 k2 ha hd => ?_) fun h => ?_⟩
    · rw [h2] at h; cases h
    · exact (h5 k a k1 k2 ha).2.2.1 (iptr_iff.2 hd)
    · rw [h2] at h; cases h
  | @str o i w h1 h2 h3 h4 h5 h6 ih =>
    refine ⟨Whole.mk h1 (fun h => h3 (iptr_iff.2 h)) h4 fun _ k a k1 k2 ha hd => ?_,
      Plain.mk h1 (fun h => ?_) fun _ k a k1 k2 ha hd => ?_⟩
    · exact (ih k a k1 k2 ha (iptr_iff.2 hd)).1
    · rw [h2] at h; cases h
    · exact (ih k a k1 k2 ha (iptr_iff.2 hd)).2
  | named => trivial
  | obj => trivial

/-! ## Structures with the same content -/

theorem look_head {c d : Code} {i j : Nat} {w : Word} (h : ∀ q, look c j q = look d i q) (hd : d[i]? = some w) :
    c[j]? = some w := by
  have := h []
  simp only [look, hd] at this
  cases hc : c[j]? with
  | none => rw [hc] at this; simp at this
  | some w' => rw [hc] at this; simpa using this

theorem look_ne_word {e : Code} {x : Nat} {w : Word} : look e x [] ≠ some (.word w) := by
  simp only [look]
  cases e[x]? <;> simp

theorem look_raw {c d : Code} {i j k : Nat} {w a : Word} (h : ∀ q, look c j q = look d i q) (hd : d[i]? = some w)
    (hr : raw w = true) (h1 : 1 ≤ k) (h2 : k ≤ count w) (ha : d[i + k]? = some a) : c[j + k]? = some a := by
  have hc := look_head h hd
  have := h [k]
  simp only [look, hc, hd, hr, if_true, ha] at this
  simp only [if_neg (show ¬ (k = 0 ∨ count w < k) by omega)] at this
  cases hb : c[j + k]? with
  | none => rw [hb] at this; simp at this
  | some b => rw [hb] at this; simpa using this

theorem look_leaf {c d : Code} {i j k : Nat} {w a : Word} (h : ∀ q, look c j q = look d i q) (hd : d[i]? = some w)
    (hr : raw w = false) (h1 : 1 ≤ k) (h2 : k ≤ count w) (ha : d[i + k]? = some a) (hn : ¬ isIPtr a) :
    c[j + k]? = some a := by
  have hc := look_head h hd
  have := h [k]
  have hn' : getDescriptor a ≠ 0x84 := fun h => hn (iptr_iff.2 h)
  simp only [look, hc, hd, hr, Bool.false_eq_true, if_false, ha] at this
  rw [if_neg (by omega), if_neg hn', if_neg (by omega)] at this
  simp only [if_true] at this
  cases hb : c[j + k]? with
  | none => rw [hb] at this; simp at this
  | some b =>
    rw [hb] at this
    simp only at this
    by_cases hb' : getDescriptor b = 0x84
    · rw [if_pos hb'] at this
      exact absurd this look_ne_word
    · rw [if_neg hb'] at this
      simpa using this

theorem look_sub {c d : Code} {i j k : Nat} {w a : Word} (h : ∀ q, look c j q = look d i q) (hd : d[i]? = some w)
    (hr : raw w = false) (h1 : 1 ≤ k) (h2 : k ≤ count w) (ha : d[i + k]? = some a) (hn : isIPtr a)
    (hs : (d[(asIndex a).toNat]?).isSome) :
    ∃ b, c[j + k]? = some b ∧ isIPtr b ∧ ∀ q, look c (asIndex b).toNat q = look d (asIndex a).toNat q := by
  have hc := look_head h hd
  have hq : ∀ q, look c j (k :: q) = look d i (k :: q) := fun q => h (k :: q)
  have hn' : getDescriptor a = 0x84 := iptr_iff.1 hn
  simp only [look, hc, hd, hr, Bool.false_eq_true, if_false, ha] at hq
  simp only [if_neg (show ¬ (k = 0 ∨ count w < k) by omega)] at hq
  obtain ⟨x, hx⟩ := Option.isSome_iff_exists.1 hs
  cases hb : c[j + k]? with
  | none =>
    have := hq []
    rw [hb, if_pos hn'] at this
    simp [look, hx] at this
  | some b =>
    rw [hb] at hq
    simp only [if_pos hn'] at hq
    by_cases hb' : getDescriptor b = 0x84
    · simp only [if_pos hb'] at hq
      exact ⟨b, rfl, iptr_iff.2 hb', hq⟩
    · have := hq []
      rw [if_neg hb'] at this
      exact absurd this.symm look_ne_word

theorem norefs_leaf {c : Code} {i k : Nat} {w a : Word} (hn : NoRefs c i) (hd : c[i]? = some w)
    (hr : raw w = false) (h1 : 1 ≤ k) (h2 : k ≤ count w) (ha : c[i + k]? = some a) : ¬ isRPtr a := by
  intro h
  have h5 := rptr_iff.1 h
  refine hn [k] none ?_
  simp only [see, hd, hr, Bool.false_eq_true, if_false, ha]
  rw [if_neg (by omega), if_neg (by rw [h5]; decide), if_pos trivial, if_pos h5]
  rfl

theorem norefs_sub {c : Code} {i k : Nat} {w a : Word} (hn : NoRefs c i) (hd : c[i]? = some w)
    (hr : raw w = false) (h1 : 1 ≤ k) (h2 : k ≤ count w) (ha : c[i + k]? = some a) (hp : isIPtr a) :
    NoRefs c (asIndex a).toNat := by
  intro q o h
  refine hn (k :: q) o ?_
  simp only [see, hd, hr, Bool.false_eq_true, if_false, ha]
  rw [if_neg (by omega), if_pos (iptr_iff.1 hp), h]

theorem ground_some {h : Heap} {oc : Opc} {o : Obj} {i : Nat} (hg : Ground h oc (.str o i)) :
    (o.code[i]?).isSome := by
  unfold Ground at hg
  cases hg with
  | data h1 => rw [h1]; rfl
  | str h1 => rw [h1]; rfl

/-- A ground structure is a structure with the same content. -/
theorem is_of_look {h : Heap} {oc : Opc} {m : BMap} {X : Place} (hg : Ground h oc X) :
    match X with
    | .str o i => ∀ c j, (∀ q, look c j q = look o.code i q) → NoRefs o.code i →
        Is h oc m (.str o i ⟨c, [], []⟩ j)
    | .word o a => isIPtr a → ∀ c j, (∀ q, look c j q = look o.code (asIndex a).toNat q) →
        NoRefs o.code (asIndex a).toNat → Is h oc m (.str o (asIndex a).toNat ⟨c, [], []⟩ j)
    | .obj _ => True := by
  unfold Ground at hg
  induction hg with
  | word h1 h2 h3 => exact fun h => absurd h h1
  | sub h1 _ ih => exact fun _ => ih
  | ref h1 h2 _ ih =>
    intro h
    rw [(Verif.Match.desc_cases.2.2.1 h).2.2] at h1; cases h1
  | @data o i w h1 h2 h3 h4 h5 =>
    intro c j hl hn
    refine Is.data h1 (look_head hl h1) h2 fun k k1 k2 => ?_
    have hlt : i + k < o.code.length := by omega
    have ha := List.getElem?_eq_getElem hlt
    rw [ha, look_raw hl h1 h2 k1 k2 ha]
  | @str o i w h1 h2 h3 h4 h5 h6 ih =>
    intro c j hl hn
    refine Is.str h1 (look_head hl h1) h2 fun k a b k1 k2 ha hb => ?_
    have g := h6 k a k1 k2 ha
    have hnr := norefs_leaf hn h1 h2 k1 k2 ha
    cases g with
    | word g1 g2 g3 =>
      have hb' := look_leaf hl h1 h2 k1 k2 ha g1
      have : a = b := Option.some.inj (hb'.symm.trans hb)
      subst this
      exact Is.atom g3
    | sub g1 g2 =>
      obtain ⟨b', hb', hp, hl'⟩ := look_sub hl h1 h2 k1 k2 ha g1 (ground_some g2)
      have : b' = b := Option.some.inj (hb'.symm.trans hb)
      subst this
      exact Is.sub g1 hp (ih k a k1 k2 ha g1 c _ hl' (norefs_sub hn h1 h2 k1 k2 ha g1))
    | ref g1 _ _ => exact absurd g1 hnr
  | named => trivial
  | obj => trivial

/-- A ground object is itself. -/
theorem is_refl {h : Heap} {oc : Opc} {m : BMap} {X : Place} (hg : Ground h oc X) :
    match X with
    | .str o i => Is h oc m (.str o i o i)
    | .word o a => Is h oc m (.word o a o a)
    | .obj a => Is h oc m (.obj a a) := by
  unfold Ground at hg
  induction hg with
  | word h1 h2 h3 => exact Is.atom h3
  | sub h1 _ ih => exact Is.sub h1 h1 ih
  | ref h1 h2 _ ih => exact Is.ref h1 h1 h2 h2 ih
  | data h1 h2 => exact Is.data h1 h1 h2 fun _ _ _ => rfl
  | str h1 h2 h3 h4 h5 h6 ih =>
    refine Is.str h1 h1 h2 fun k a b k1 k2 ha hb => ?_
    have : a = b := Option.some.inj (ha.symm.trans hb)
    subst this
    exact ih k a k1 k2 ha
  | named h1 h2 h3 => exact Is.named h1 h2 h3
  | obj h1 h2 h3 h4 h5 h6 ih =>
    refine Is.obj h1 h1 h2 h2 h3 fun k a b k1 k2 ha hb => ?_
    have : a = b := Option.some.inj (ha.symm.trans hb)
    subst this
    exact ih k a k1 k2 ha

/-- A structure with the content of a ground one is ground. -/
theorem ground_of_look {h : Heap} {oc : Opc} {X : Place} (hg : Ground h oc X) :
    match X with
    | .str o i => ∀ c j, (∀ q, look c j q = look o.code i q) → Whole c j → NoRefs o.code i →
        Ground h oc (.str ⟨c, [], []⟩ j)
    | .word o a => isIPtr a → ∀ c j, (∀ q, look c j q = look o.code (asIndex a).toNat q) → Whole c j →
        NoRefs o.code (asIndex a).toNat → Ground h oc (.str ⟨c, [], []⟩ j)
    | .obj _ => True := by
  unfold Ground at hg ⊢
  induction hg with
  | word h1 h2 h3 => exact fun h => absurd h h1
  | sub h1 _ ih => exact fun _ => ih
  | ref h1 h2 _ ih =>
    intro h
    rw [(Verif.Match.desc_cases.2.2.1 h).2.2] at h1; cases h1
  | @data o i w h1 h2 h3 h4 h5 =>
    intro c j hl hw hn
    have hc := look_head hl h1
    cases hw with
    | mk hh hp hall _ =>
      obtain rfl := Option.some.inj (hc.symm.trans hh)
      refine Ok.data (o := ⟨c, [], []⟩) hc h2 hall h4 fun k a k1 k2 ha => ?_
      have ha' := List.getElem?_eq_getElem (show i + k < o.code.length by omega)
      have := look_raw hl h1 h2 k1 k2 ha'
      obtain rfl := Option.some.inj (this.symm.trans ha)
      exact h5 k _ k1 k2 ha'
  | @str o i w h1 h2 h3 h4 h5 h6 ih =>
    intro c j hl hw hn
    have hc := look_head hl h1
    cases hw with
    | mk hh hp hall hsub =>
      obtain rfl := Option.some.inj (hc.symm.trans hh)
      refine Ok.str (o := ⟨c, [], []⟩) hc h2 h3 hall trivial fun k b k1 k2 hb => ?_
      have ha := List.getElem?_eq_getElem (show i + k < o.code.length by omega)
      have hnr := norefs_leaf hn h1 h2 k1 k2 ha
      have g := h6 k _ k1 k2 ha
      cases g with
      | word g1 g2 g3 =>
        obtain rfl := Option.some.inj ((look_leaf hl h1 h2 k1 k2 ha g1).symm.trans hb)
        exact Ok.word g1 g2 g3
      | sub g1 g2 =>
        obtain ⟨b', hb', hp', hl'⟩ := look_sub hl h1 h2 k1 k2 ha g1 (ground_some g2)
        obtain rfl := Option.some.inj (hb'.symm.trans hb)
        exact Ok.sub hp' (ih k _ k1 k2 ha g1 c _ hl' (hsub h2 k b' k1 k2 hb (iptr_iff.1 hp'))
          (norefs_sub hn h1 h2 k1 k2 ha g1))
      | ref g1 _ _ => exact absurd g1 hnr
  | named => trivial
  | obj => trivial

/-- The copy of a ground structure. -/
theorem copy_ground {h : Heap} {oc : Opc} {o : Obj} {i : Nat} (hg : Ground h oc (.str o i)) (hn : NoRefs o.code i)
    (hs : ∀ f c, structureValue f o.code i = some c → c.length ≤ 4096) :
    ∃ c, Ev (fun g => structureValue g o.code i = some c) ∧ (∀ q, look c 0 q = look o.code i q) ∧
      Ground h oc (.str ⟨c, [], []⟩ 0) ∧ NoRefs c 0 := by
  obtain ⟨hw, hp⟩ := whole_of_ground hg
  obtain ⟨f, hf⟩ := copyStructure_total hp hw
  obtain ⟨⟨v, n⟩, hr⟩ := Option.isSome_iff_exists.1 (hf f (Nat.le_refl _) [] 0)
  have C := copyStructure_spec f [] 0 i v n hr hp hw
  have hv : structureValue f o.code i = some v := by simp [structureValue, hr]
  have hl := hs f v hv
  obtain ⟨h1, h2, h3, -⟩ := C.same (by have := C.room; omega) v (fun _ _ _ => rfl)
  refine ⟨v, ⟨f, fun g hg => ?_⟩, h1, ground_of_look hg v 0 h1 h3 hn, fun p r => ?_⟩
  · simp [structureValue, copyStructure_mono' hr g hg]
  · rw [see_congr [] p 0 i h1]
    exact hn p r

end Verif.Unify
