import Verif.Image.Model
/-! Proof internals for the image model. -/
namespace Verif.Image

theorem store_mid (pre post : Mem) (x v : W) {a : Nat} (ha : a = pre.length) :
    store (pre ++ x :: post) a v = some (pre ++ v :: post) := by
  subst ha
  simp [store]

theorem load_mid (pre post : Mem) (x : W) {a : Nat} (ha : a = pre.length) :
    load (pre ++ x :: post) a = some x := by
  subst ha
  simp [load]

theorem storeList_mid (vs : List W) : ∀ (pre old post : Mem) {a : Nat}, a = pre.length →
    old.length = vs.length → storeList (pre ++ (old ++ post)) a vs = some (pre ++ (vs ++ post)) := by
  induction vs with
  | nil =>
    intro pre old post a ha ho
    obtain rfl := List.length_eq_zero_iff.mp ho
    rfl
  | cons v vs ih =>
    intro pre old post a ha ho
    obtain ⟨x, old, rfl⟩ := List.exists_cons_of_length_eq_add_one ho
    simp only [storeList]
    rw [List.cons_append, store_mid pre _ x v ha, Option.bind_some]
    have := ih (pre ++ [v]) old post (a := a + 1) (by simp [ha]) (by simpa using ho)
    simpa using this

theorem loadList_mid (vs : List W) : ∀ (pre post : Mem) {a n : Nat}, a = pre.length →
    n = vs.length → loadList (pre ++ (vs ++ post)) a n = some vs := by
  induction vs with
  | nil => intro pre post a n _ hn; subst hn; rfl
  | cons v vs ih =>
    intro pre post a n ha hn
    subst hn
    simp only [List.length_cons, loadList, List.cons_append]
    rw [load_mid pre _ v ha, Option.bind_some]
    have := ih (pre ++ [v]) post (a := a + 1) (by simp [ha]) rfl
    simp only [List.append_assoc, List.singleton_append] at this
    rw [this]
    rfl

theorem splitLen {α : Type} {l : List α} {a b : Nat} (h : l.length = a + b) :
    ∃ x y, l = x ++ y ∧ x.length = a ∧ y.length = b :=
  ⟨l.take a, l.drop a, (List.take_append_drop a l).symm, by simp; omega, by simp; omega⟩

theorem consLen {α : Type} {l : List α} {n : Nat} (h : l.length = n + 1) :
    ∃ x t, l = x :: t ∧ t.length = n := by
  obtain ⟨x, t, rfl⟩ := List.exists_cons_of_length_eq_add_one h
  exact ⟨x, t, rfl, by simpa using h⟩

theorem toNat_len {n : Nat} (h : n < 2 ^ 32) : (BitVec.ofNat 32 n).toNat = n := by
  simp only [BitVec.toNat_ofNat]; exact Nat.mod_eq_of_lt h

theorem refs_back (l : List H) :
    (l.map (BitVec.setWidth 32)).map (BitVec.setWidth 16) = l := by
  rw [List.map_map]
  conv => rhs; rw [← List.map_id l]
  apply List.map_congr_left
  intro x _
  apply BitVec.eq_of_toNat_eq
  have := x.isLt
  simp only [Function.comp, BitVec.toNat_setWidth, id]
  omega

/-! ### Views -/

/-- The words of a view record. -/
def SysView.enc (v : SysView) : List W :=
  BitVec.ofNat 32 v.code.length :: BitVec.ofNat 32 v.refs.length ::
    (v.code ++ v.refs.map (BitVec.setWidth 32))

theorem SysView.enc_length (v : SysView) : v.enc.length = v.size := by
  simp [SysView.enc, SysView.size]; omega

theorem SysView.write_mid (v : SysView) (pre old post : Mem) {a : Nat} (ha : a = pre.length)
    (ho : old.length = v.size) :
    v.write (pre ++ (old ++ post)) a = some (pre ++ (v.enc ++ post)) := by
  simp only [SysView.size] at ho
  obtain ⟨x0, old, rfl, ho0⟩ := consLen (n := 1 + v.code.length + v.refs.length) (ho.trans (by omega))
  obtain ⟨x1, old, rfl, ho1⟩ := consLen (n := v.code.length + v.refs.length) (ho0.trans (by omega))
  obtain ⟨oc, or', rfl, hc, hr⟩ := splitLen ho1
  simp only [SysView.write, Option.bind_eq_bind, List.cons_append]
  rw [store_mid pre _ x0 _ ha, Option.bind_some]
  have h1 := store_mid (pre ++ [BitVec.ofNat 32 v.code.length]) (oc ++ or' ++ post) x1
    (BitVec.ofNat 32 v.refs.length) (a := a + 1) (by simp [ha])
  simp only [List.append_assoc, List.cons_append, List.nil_append] at h1 ⊢
  rw [h1, Option.bind_some]
  have h2 := storeList_mid v.code
    (pre ++ [BitVec.ofNat 32 v.code.length, BitVec.ofNat 32 v.refs.length]) oc (or' ++ post)
    (a := a + 2) (by simp [ha]) hc
  simp only [List.append_assoc, List.cons_append, List.nil_append] at h2
  rw [h2, Option.bind_some]
  have h3 := storeList_mid (v.refs.map (BitVec.setWidth 32))
    (pre ++ [BitVec.ofNat 32 v.code.length, BitVec.ofNat 32 v.refs.length] ++ v.code) or' post
    (a := a + 2 + v.code.length) (by simp [ha]; omega) (by simpa using hr)
  simp only [List.append_assoc, List.cons_append, List.nil_append] at h3
  rw [h3]
  simp [SysView.enc]

/-- Sizes that fit the 32-bit header words. -/
def SysView.Small (v : SysView) : Prop := v.size < 2 ^ 32

theorem SysView.read_mid (v : SysView) (hs : v.Small) (pre post : Mem) {a : Nat}
    (ha : a = pre.length) : SysView.read (pre ++ (v.enc ++ post)) a = some v := by
  simp only [SysView.Small, SysView.size] at hs
  simp only [SysView.read, Option.bind_eq_bind, SysView.enc, List.cons_append]
  rw [load_mid pre _ _ ha, Option.bind_some]
  have h1 := load_mid (pre ++ [BitVec.ofNat 32 v.code.length])
    (v.code ++ v.refs.map (BitVec.setWidth 32) ++ post) (BitVec.ofNat 32 v.refs.length)
    (a := a + 1) (by simp [ha])
  simp only [List.append_assoc, List.cons_append, List.nil_append] at h1 ⊢
  rw [h1, Option.bind_some, toNat_len (by omega), toNat_len (by omega)]
  have h2 := loadList_mid v.code
    (pre ++ [BitVec.ofNat 32 v.code.length, BitVec.ofNat 32 v.refs.length])
    (v.refs.map (BitVec.setWidth 32) ++ post) (a := a + 2) (by simp [ha]) rfl
  simp only [List.append_assoc, List.cons_append, List.nil_append] at h2
  rw [h2, Option.bind_some]
  have h3 := loadList_mid (v.refs.map (BitVec.setWidth 32))
    (pre ++ [BitVec.ofNat 32 v.code.length, BitVec.ofNat 32 v.refs.length] ++ v.code) post
    (a := a + 2 + v.code.length) (by simp [ha]; omega) rfl
  simp only [List.append_assoc, List.cons_append, List.nil_append, List.length_map] at h3
  rw [h3, Option.bind_some, refs_back]

/-- The records of several views. -/
def encViews (vs : List SysView) : List W := vs.flatMap SysView.enc

theorem encViews_length (vs : List SysView) : (encViews vs).length = (vs.map SysView.size).sum := by
  induction vs with
  | nil => rfl
  | cons v vs ih =>
    simp only [encViews] at ih
    simp [encViews, SysView.enc_length, ih]

theorem writeViews_mid (vs : List SysView) : ∀ (pre old post : Mem) {a : Nat}, a = pre.length →
    old.length = (vs.map SysView.size).sum →
    writeViews (pre ++ (old ++ post)) a vs = some (pre ++ (encViews vs ++ post)) := by
  induction vs with
  | nil =>
    intro pre old post a _ ho
    obtain rfl := List.length_eq_zero_iff.mp ho
    rfl
  | cons v vs ih =>
    intro pre old post a ha ho
    simp only [List.map_cons, List.sum_cons] at ho
    obtain ⟨o1, o2, rfl, h1, h2⟩ := splitLen ho
    simp only [writeViews, List.append_assoc]
    rw [v.write_mid pre o1 (o2 ++ post) ha h1, Option.bind_some]
    have := ih (pre ++ v.enc) o2 post (a := a + v.size) (by simp [ha, v.enc_length]) h2
    simp only [List.append_assoc] at this
    rw [this]
    simp [encViews]

theorem readViews_mid (vs : List SysView) : (∀ v ∈ vs, v.Small) → ∀ (pre post : Mem) {a : Nat},
    a = pre.length → readViews (pre ++ (encViews vs ++ post)) a vs.length = some vs := by
  induction vs with
  | nil => intro _ pre post a _; rfl
  | cons v vs ih =>
    intro hs pre post a ha
    simp only [readViews, List.length_cons, encViews, List.flatMap_cons, List.append_assoc]
    rw [v.read_mid (hs v (by simp)) pre _ ha, Option.bind_some]
    have := ih (fun x hx => hs x (by simp [hx])) (pre ++ v.enc) post (a := a + v.size)
      (by simp [ha, v.enc_length])
    simp only [List.append_assoc, encViews] at this
    rw [this]; rfl

/-! ### Objects -/

def SysObject.enc (o : SysObject) : List W :=
  o.oid :: BitVec.ofNat 32 o.code.length :: BitVec.ofNat 32 o.refs.length ::
    BitVec.ofNat 32 o.markers.length :: BitVec.ofNat 32 o.views.length ::
    (o.code ++ (o.refs.map (BitVec.setWidth 32) ++ (o.markers ++ encViews o.views)))

theorem SysObject.enc_length (o : SysObject) : o.enc.length = o.size := by
  simp [SysObject.enc, SysObject.size, encViews_length]; omega

def SysObject.Small (o : SysObject) : Prop := o.size < 2 ^ 32

theorem le_sum_size {vs : List SysView} {v : SysView} (h : v ∈ vs) :
    v.size ≤ (vs.map SysView.size).sum := by
  induction vs with
  | nil => cases h
  | cons x vs ih =>
    simp only [List.map_cons, List.sum_cons]
    rcases List.mem_cons.mp h with rfl | h
    · omega
    · have := ih h; omega

theorem length_le_sum_size (vs : List SysView) : vs.length ≤ (vs.map SysView.size).sum := by
  induction vs with
  | nil => simp
  | cons x vs ih => simp [SysView.size] at *; omega

theorem SysObject.write_mid (o : SysObject) (pre old post : Mem) {a : Nat} (ha : a = pre.length)
    (ho : old.length = o.size) :
    o.write (pre ++ (old ++ post)) a = some (pre ++ (o.enc ++ post)) := by
  simp only [SysObject.size] at ho
  obtain ⟨x0, old, rfl, ho1⟩ := consLen (n := 4 + o.code.length + o.refs.length + o.markers.length
    + (o.views.map SysView.size).sum) (ho.trans (by omega))
  obtain ⟨x1, old, rfl, ho2⟩ := consLen (n := 3 + o.code.length + o.refs.length + o.markers.length
    + (o.views.map SysView.size).sum) (ho1.trans (by omega))
  obtain ⟨x2, old, rfl, ho3⟩ := consLen (n := 2 + o.code.length + o.refs.length + o.markers.length
    + (o.views.map SysView.size).sum) (ho2.trans (by omega))
  obtain ⟨x3, old, rfl, ho4⟩ := consLen (n := 1 + o.code.length + o.refs.length + o.markers.length
    + (o.views.map SysView.size).sum) (ho3.trans (by omega))
  obtain ⟨x4, old, rfl, ho5⟩ := consLen (n := o.code.length + (o.refs.length + (o.markers.length
    + (o.views.map SysView.size).sum))) (ho4.trans (by omega))
  obtain ⟨oc, old, rfl, hc, ho⟩ := splitLen ho5
  obtain ⟨or', old, rfl, hr, ho⟩ := splitLen ho
  obtain ⟨om, ov, rfl, hm, hv⟩ := splitLen ho
  simp only [SysObject.write, Option.bind_eq_bind, List.cons_append, List.append_assoc]
  generalize hl1 : BitVec.ofNat 32 o.code.length = l1
  generalize hl2 : BitVec.ofNat 32 o.refs.length = l2
  generalize hl3 : BitVec.ofNat 32 o.markers.length = l3
  generalize hl4 : BitVec.ofNat 32 o.views.length = l4
  rw [store_mid pre _ x0 _ ha, Option.bind_some]
  have h := store_mid (pre ++ [o.oid]) (x2 :: x3 :: x4 :: (oc ++ (or' ++ (om ++ (ov ++ post))))) x1
    l1 (a := a + 1) (by simp [ha])
  simp only [List.append_assoc, List.cons_append, List.nil_append] at h
  rw [h, Option.bind_some]
  have h := store_mid (pre ++ [o.oid, l1]) (x3 :: x4 :: (oc ++ (or' ++ (om ++ (ov ++ post))))) x2
    l2 (a := a + 2) (by simp [ha])
  simp only [List.append_assoc, List.cons_append, List.nil_append] at h
  rw [h, Option.bind_some]
  have h := store_mid (pre ++ [o.oid, l1, l2]) (x4 :: (oc ++ (or' ++ (om ++ (ov ++ post))))) x3
    l3 (a := a + 3) (by simp [ha])
  simp only [List.append_assoc, List.cons_append, List.nil_append] at h
  rw [h, Option.bind_some]
  have h := store_mid (pre ++ [o.oid, l1, l2, l3]) (oc ++ (or' ++ (om ++ (ov ++ post)))) x4
    l4 (a := a + 4) (by simp [ha])
  simp only [List.append_assoc, List.cons_append, List.nil_append] at h
  rw [h, Option.bind_some]
  have h := storeList_mid o.code (pre ++ [o.oid, l1, l2, l3, l4]) oc (or' ++ (om ++ (ov ++ post)))
    (a := a + 5) (by simp [ha]) hc
  simp only [List.append_assoc, List.cons_append, List.nil_append] at h
  rw [h, Option.bind_some]
  have h := storeList_mid (o.refs.map (BitVec.setWidth 32))
    (pre ++ [o.oid, l1, l2, l3, l4] ++ o.code) or' (om ++ (ov ++ post))
    (a := a + 5 + o.code.length) (by simp [ha]; omega) (by simpa using hr)
  simp only [List.append_assoc, List.cons_append, List.nil_append] at h
  rw [h, Option.bind_some]
  have h := storeList_mid o.markers
    (pre ++ [o.oid, l1, l2, l3, l4] ++ o.code ++ o.refs.map (BitVec.setWidth 32)) om (ov ++ post)
    (a := a + 5 + o.code.length + o.refs.length) (by simp [ha]; omega) hm
  simp only [List.append_assoc, List.cons_append, List.nil_append] at h
  rw [h, Option.bind_some]
  have h := writeViews_mid o.views
    (pre ++ [o.oid, l1, l2, l3, l4] ++ o.code ++ o.refs.map (BitVec.setWidth 32) ++ o.markers) ov post
    (a := a + 5 + o.code.length + o.refs.length + o.markers.length) (by simp [ha]; omega) hv
  simp only [List.append_assoc, List.cons_append, List.nil_append] at h
  rw [h]
  simp [SysObject.enc, hl1, hl2, hl3, hl4]

theorem SysObject.read_mid (o : SysObject) (hs : o.Small) (pre post : Mem) {a : Nat}
    (ha : a = pre.length) : SysObject.read (pre ++ (o.enc ++ post)) a = some o := by
  simp only [SysObject.Small, SysObject.size] at hs
  have hvl := length_le_sum_size o.views
  simp only [SysObject.read, Option.bind_eq_bind, SysObject.enc, List.cons_append, List.append_assoc]
  have e1 := toNat_len (n := o.code.length) (by omega)
  have e2 := toNat_len (n := o.refs.length) (by omega)
  have e3 := toNat_len (n := o.markers.length) (by omega)
  have e4 := toNat_len (n := o.views.length) (by omega)
  generalize BitVec.ofNat 32 o.code.length = l1 at *
  generalize BitVec.ofNat 32 o.refs.length = l2 at *
  generalize BitVec.ofNat 32 o.markers.length = l3 at *
  generalize BitVec.ofNat 32 o.views.length = l4 at *
  rw [load_mid pre _ _ ha, Option.bind_some]
  have h := load_mid (pre ++ [o.oid]) (l2 :: l3 :: l4 :: (o.code ++ (o.refs.map (BitVec.setWidth 32)
    ++ (o.markers ++ (encViews o.views ++ post))))) l1 (a := a + 1) (by simp [ha])
  simp only [List.append_assoc, List.cons_append, List.nil_append] at h
  rw [h, Option.bind_some]
  have h := load_mid (pre ++ [o.oid, l1]) (l3 :: l4 :: (o.code ++ (o.refs.map (BitVec.setWidth 32)
    ++ (o.markers ++ (encViews o.views ++ post))))) l2 (a := a + 2) (by simp [ha])
  simp only [List.append_assoc, List.cons_append, List.nil_append] at h
  rw [h, Option.bind_some]
  have h := load_mid (pre ++ [o.oid, l1, l2]) (l4 :: (o.code ++ (o.refs.map (BitVec.setWidth 32)
    ++ (o.markers ++ (encViews o.views ++ post))))) l3 (a := a + 3) (by simp [ha])
  simp only [List.append_assoc, List.cons_append, List.nil_append] at h
  rw [h, Option.bind_some]
  have h := load_mid (pre ++ [o.oid, l1, l2, l3]) (o.code ++ (o.refs.map (BitVec.setWidth 32)
    ++ (o.markers ++ (encViews o.views ++ post)))) l4 (a := a + 4) (by simp [ha])
  simp only [List.append_assoc, List.cons_append, List.nil_append] at h
  rw [h, Option.bind_some, e1, e2, e3, e4]
  have h := loadList_mid o.code (pre ++ [o.oid, l1, l2, l3, l4]) (o.refs.map (BitVec.setWidth 32)
    ++ (o.markers ++ (encViews o.views ++ post))) (a := a + 5) (by simp [ha]) rfl
  simp only [List.append_assoc, List.cons_append, List.nil_append] at h
  rw [h, Option.bind_some]
  have h := loadList_mid (o.refs.map (BitVec.setWidth 32)) (pre ++ [o.oid, l1, l2, l3, l4] ++ o.code)
    (o.markers ++ (encViews o.views ++ post)) (a := a + 5 + o.code.length) (by simp [ha]; omega) rfl
  simp only [List.append_assoc, List.cons_append, List.nil_append, List.length_map] at h
  rw [h, Option.bind_some]
  have h := loadList_mid o.markers
    (pre ++ [o.oid, l1, l2, l3, l4] ++ o.code ++ o.refs.map (BitVec.setWidth 32))
    (encViews o.views ++ post) (a := a + 5 + o.code.length + o.refs.length) (by simp [ha]; omega) rfl
  simp only [List.append_assoc, List.cons_append, List.nil_append] at h
  rw [h, Option.bind_some]
  have h := readViews_mid o.views (fun v hv => by have := le_sum_size hv; simp only [SysView.Small]; omega)
    (pre ++ [o.oid, l1, l2, l3, l4] ++ o.code ++ o.refs.map (BitVec.setWidth 32) ++ o.markers) post
    (a := a + 5 + o.code.length + o.refs.length + o.markers.length) (by simp [ha]; omega)
  simp only [List.append_assoc, List.cons_append, List.nil_append] at h
  rw [h, Option.bind_some, refs_back]

/-! ### Code segments -/

def encObjects (os : List SysObject) : List W := os.flatMap SysObject.enc

theorem encObjects_length (os : List SysObject) : (encObjects os).length = codeSize os := by
  induction os with
  | nil => rfl
  | cons o os ih =>
    simp only [encObjects, codeSize] at ih
    simp [encObjects, codeSize, SysObject.enc_length, ih]

theorem writeObjects_mid (os : List SysObject) : ∀ (pre old post : Mem) {a : Nat}, a = pre.length →
    old.length = codeSize os →
    writeObjects (pre ++ (old ++ post)) a os = some (pre ++ (encObjects os ++ post)) := by
  induction os with
  | nil =>
    intro pre old post a _ ho
    obtain rfl := List.length_eq_zero_iff.mp ho
    rfl
  | cons v vs ih =>
    intro pre old post a ha ho
    simp only [codeSize, List.map_cons, List.sum_cons] at ho
    obtain ⟨o1, o2, rfl, h1, h2⟩ := splitLen ho
    simp only [writeObjects, List.append_assoc]
    rw [v.write_mid pre o1 (o2 ++ post) ha h1, Option.bind_some]
    have := ih (pre ++ v.enc) o2 post (a := a + v.size) (by simp [ha, v.enc_length]) h2
    simp only [List.append_assoc] at this
    rw [this]
    simp [encObjects]

/-- Reading objects from offset `off` of the segment at `pre`, as long as every offset at which an
object starts fits 16 bits. -/
theorem readObjects_mid (os : List SysObject) : (∀ o ∈ os, o.Small) → ∀ (pre done post : Mem) {a : Nat}
    {off : H}, a = pre.length → off.toNat = done.length →
    (∀ n, n < os.length → done.length + codeSize (os.take n) < 65536) →
    readObjects (pre ++ (done ++ (encObjects os ++ post))) a off os.length = some os := by
  induction os with
  | nil => intro _ pre done post a off _ _ _; rfl
  | cons o os ih =>
    intro hs pre done post a off ha hoff hlt
    simp only [readObjects, List.length_cons, encObjects, List.flatMap_cons, List.append_assoc]
    have h := o.read_mid (hs o (by simp)) (pre ++ done) (encObjects os ++ post)
      (a := a + off.toNat) (by simp [ha, hoff])
    simp only [List.append_assoc, encObjects] at h
    rw [h, Option.bind_some]
    cases os with
    | nil => rfl
    | cons o' os =>
      have h1 := hlt 1 (by simp)
      simp only [List.take_succ_cons, List.take_zero, codeSize, List.map_cons, List.map_nil,
        List.sum_cons, List.sum_nil] at h1
      have h2 := ih (fun x hx => hs x (by simp [hx])) pre (done ++ o.enc) post (a := a)
        (off := off + BitVec.ofNat 16 o.size) ha
        (by simp only [BitVec.toNat_add, BitVec.toNat_ofNat, List.length_append, o.enc_length, hoff]
            omega)
        (by
          intro n hn
          have := hlt (n + 1) (by simpa using hn)
          simp only [List.take_succ_cons, codeSize, List.map_cons, List.sum_cons] at this
          simp only [List.length_append, o.enc_length, codeSize]
          omega)
      simp only [List.append_assoc, encObjects] at h2
      rw [h2]; rfl

/-! ### Bytes -/

theorem getByte_setByte (w : W) (v : Byte) {i j : Nat} (hi : i < 4) (hj : j < 4) :
    getByte (setByte w i v) j = if j = i then v else getByte w j := by
  apply BitVec.eq_of_getLsbD_eq
  intro k hk
  have hlit : ∀ n, (255#32).getLsbD n = decide (n < 8) := by
    intro n
    by_cases h : n < 32
    · have : ∀ m : Fin 32, (255#32).getLsbD m.val = decide (m.val < 8) := by decide
      exact this ⟨n, h⟩
    · rw [BitVec.getLsbD_of_ge _ _ (by omega)]
      simp; omega
  by_cases hij : j = i
  · subst hij
    simp only [getByte, setByte, if_pos, BitVec.getLsbD_setWidth, BitVec.getLsbD_ushiftRight,
      BitVec.getLsbD_or, BitVec.getLsbD_and, BitVec.getLsbD_not, BitVec.getLsbD_shiftLeft, hlit]
    have : 8 * j + k < 32 := by omega
    have h2 : ¬ (8 * j + k < 8 * j) := by omega
    have h3 : 8 * j + k - 8 * j = k := by omega
    simp [this, h2, h3, hk]
    omega
  · simp only [getByte, setByte, if_neg hij, BitVec.getLsbD_setWidth, BitVec.getLsbD_ushiftRight,
      BitVec.getLsbD_or, BitVec.getLsbD_and, BitVec.getLsbD_not, BitVec.getLsbD_shiftLeft, hlit]
    have : 8 * j + k < 32 := by omega
    by_cases h2 : 8 * j + k < 8 * i
    · simp [this, h2, hk]
    · have h4 : ¬ (8 * j + k - 8 * i < 8) := by omega
      have h5 : v.getLsbD (8 * j + k - 8 * i) = false := BitVec.getLsbD_of_ge _ _ (by omega)
      simp [this, h2, h4, h5, hk]

theorem storeByte_length {m m' : Mem} {k : Nat} {v : Byte} (h : storeByte m k v = some m') :
    m'.length = m.length := by
  unfold storeByte at h
  cases hw : m[k / 4]? with
  | none => rw [hw] at h; cases h
  | some w => rw [hw] at h; cases h; simp

theorem storeByte_some (m : Mem) (k : Nat) (v : Byte) (h : k / 4 < m.length) :
    ∃ m', storeByte m k v = some m' ∧ m'.length = m.length ∧
      (∀ j, loadByte m' j = if j = k then some v else loadByte m j) ∧
      (∀ a, a ≠ k / 4 → m'[a]? = m[a]?) := by
  refine ⟨m.set (k / 4) (setByte m[k / 4] (k % 4) v), ?_, by simp, ?_, ?_⟩
  · simp [storeByte, List.getElem?_eq_getElem h]
  · intro j
    simp only [loadByte]
    by_cases hj : j / 4 = k / 4
    · rw [hj, List.getElem?_set_self h, List.getElem?_eq_getElem h]
      simp only [Option.map_some]
      rw [getByte_setByte _ _ (by omega) (by omega)]
      by_cases h2 : j % 4 = k % 4
      · rw [if_pos h2, if_pos (by omega)]
      · rw [if_neg h2, if_neg (by omega)]
    · rw [List.getElem?_set_ne (by omega), if_neg (by rintro rfl; exact hj rfl)]
  · intro a ha
    rw [List.getElem?_set_ne (by omega)]

theorem storeBytes_some (vs : List Byte) : ∀ (m : Mem) (k : Nat),
    (vs = [] ∨ (k + vs.length - 1) / 4 < m.length) →
    ∃ m', storeBytes m k vs = some m' ∧ m'.length = m.length ∧
      (∀ j, loadByte m' j = if k ≤ j ∧ j < k + vs.length then vs[j - k]? else loadByte m j) ∧
      (∀ a, (a < k / 4 ∨ k + vs.length ≤ 4 * a) → m'[a]? = m[a]?) := by
  induction vs with
  | nil =>
    intro m k _
    refine ⟨m, rfl, rfl, fun j => ?_, fun _ _ => rfl⟩
    rw [if_neg (by simp)]
  | cons v vs ih =>
    intro m k h
    have h : (k + (vs.length + 1) - 1) / 4 < m.length := by simpa using h
    obtain ⟨m1, h1, hl1, hb1, hw1⟩ := storeByte_some m k v (by omega)
    obtain ⟨m2, h2, hl2, hb2, hw2⟩ := ih m1 (k + 1) (by
      by_cases hv : vs = []
      · exact .inl hv
      · have : vs.length ≠ 0 := by simpa using hv
        right; omega)
    refine ⟨m2, by simp [storeBytes, h1, h2], by omega, ?_, ?_⟩
    · intro j
      rw [hb2, hb1]
      simp only [List.length_cons]
      by_cases hj : j = k
      · subst hj
        rw [if_neg (by omega), if_pos rfl, if_pos (by omega)]
        simp
      · by_cases hr : k + 1 ≤ j ∧ j < k + 1 + vs.length
        · rw [if_pos hr, if_pos (by omega)]
          have : j - k = (j - (k + 1)) + 1 := by omega
          rw [this]; simp
        · rw [if_neg hr, if_neg hj, if_neg (by omega)]
    · intro a ha
      simp only [List.length_cons] at ha
      rw [hw2 a (by omega), hw1 a (by omega)]

/-- A C string found byte by byte is read back. -/
theorem loadCStr_of_bytes (s : List Byte) (hs : (0#8) ∉ s) : ∀ (m : Mem) (k fuel : Nat),
    s.length < fuel → (∀ i, i < s.length + 1 → loadByte m (k + i) = (s ++ [0#8])[i]?) →
    loadCStr m k fuel = some s := by
  induction s with
  | nil =>
    intro m k fuel hf hb
    obtain ⟨f, rfl⟩ : ∃ f, fuel = f + 1 := ⟨fuel - 1, by simp at hf; omega⟩
    have := hb 0 (by simp)
    simp only [Nat.add_zero, List.nil_append, List.getElem?_cons_zero] at this
    simp [loadCStr, this]
  | cons c s ih =>
    intro m k fuel hf hb
    obtain ⟨f, rfl⟩ : ∃ f, fuel = f + 1 := ⟨fuel - 1, by simp at hf; omega⟩
    have h0 := hb 0 (by simp)
    simp only [Nat.add_zero, List.cons_append, List.getElem?_cons_zero] at h0
    have hc : c ≠ 0#8 := fun h => hs (by simp [h])
    have h1 := ih (fun h => hs (by simp [h])) m (k + 1) f (by simpa using hf) (by
      intro i hi
      have := hb (i + 1) (by simpa using hi)
      rw [show k + 1 + i = k + (i + 1) by omega, this]
      simp)
    simp [loadCStr, h0, hc, h1]

/-- The padded words of a string at a fixed length: what `storeBytes` leaves there. -/
def IsStr (s : List Byte) (ws : List W) : Prop :=
  ws.length = strWords s ∧ ∀ i, i < s.length + 1 → loadByte ws i = (s ++ [0#8])[i]?

theorem strWords_le (s : List Byte) : s.length + 1 ≤ 4 * strWords s ∧ 0 < strWords s ∧
    4 * strWords s < s.length + 5 := by
  unfold strWords
  split <;> omega

theorem strSize_eq (s : List Byte) : strSize s = strWords s + 1 := by
  unfold strSize strWords
  split <;> omega

theorem loadByte_mid (pre ws post : Mem) (i : Nat) (hi : i < 4 * ws.length) :
    loadByte (pre ++ (ws ++ post)) (4 * pre.length + i) = loadByte ws i := by
  simp only [loadByte]
  have h1 : (4 * pre.length + i) / 4 = pre.length + i / 4 := by omega
  have h2 : (4 * pre.length + i) % 4 = i % 4 := by omega
  rw [h1, h2, List.getElem?_append_right (by omega), Nat.add_sub_cancel_left,
    List.getElem?_append_left (by omega)]

theorem storeBytes_mid (s : List Byte) (pre old post : Mem) {k : Nat} (hk : k = 4 * pre.length)
    (ho : old.length = strWords s) :
    ∃ ws, IsStr s ws ∧ storeBytes (pre ++ (old ++ post)) k (s ++ [0#8]) =
      some (pre ++ (ws ++ post)) := by
  subst hk
  have hsw := strWords_le s
  obtain ⟨m', h1, hl, hb, hw⟩ := storeBytes_some (s ++ [0#8]) (pre ++ (old ++ post)) (4 * pre.length)
    (by right; simp; omega)
  simp only [List.length_append, List.length_cons, List.length_nil] at hl hb hw
  obtain ⟨p', r', rfl, hp, hr⟩ := splitLen (l := m') (a := pre.length) (b := old.length + post.length)
    (by omega)
  obtain ⟨ws, q', rfl, hws, hq⟩ := splitLen hr
  have e1 : p' = pre := by
    apply List.ext_getElem?
    intro a
    by_cases ha : a < pre.length
    · have := hw a (by omega)
      rw [List.getElem?_append_left (by omega), List.getElem?_append_left ha] at this
      exact this
    · rw [List.getElem?_eq_none (by omega), List.getElem?_eq_none (by omega)]
  subst e1
  have e2 : q' = post := by
    apply List.ext_getElem?
    intro a
    have := hw (p'.length + (ws.length + a)) (by omega)
    rw [List.getElem?_append_right (by omega), List.getElem?_append_right (by omega),
      List.getElem?_append_right (by omega), List.getElem?_append_right (by omega)] at this
    rw [show p'.length + (ws.length + a) - p'.length - ws.length = a by omega,
      show p'.length + (ws.length + a) - p'.length - old.length = a by omega] at this
    exact this
  subst e2
  refine ⟨ws, ⟨by omega, ?_⟩, h1⟩
  intro i hi
  have := hb (4 * p'.length + i)
  rw [loadByte_mid _ _ _ _ (by omega), if_pos (by omega)] at this
  rw [this]
  congr 1
  omega

theorem cstrAt_mid (s : List Byte) (hs : (0#8) ∉ s) (ws pre post : Mem) (h : IsStr s ws) {a : Nat}
    (ha : a = pre.length) : cstrAt (pre ++ (ws ++ post)) a = some s := by
  subst ha
  have hsw := strWords_le s
  unfold cstrAt
  apply loadCStr_of_bytes s hs
  · have := h.1
    simp only [List.length_append]
    omega
  · intro i hi
    have := h.1
    rw [loadByte_mid _ _ _ _ (by omega)]
    exact h.2 i hi

/-! ### Names -/

/-- Word-level shape of the names segment after writing, whatever the padding. -/
inductive IsNames : Names → List W → Prop
  | nil : IsNames [] []
  | cons {oid s rest ws ws'} : IsStr s ws → IsNames rest ws' →
      IsNames ((oid, s) :: rest) (oid :: BitVec.ofNat 32 (strWords s) :: (ws ++ ws'))

theorem IsNames.length {ns : Names} {ws : List W} (h : IsNames ns ws) :
    ws.length = (ns.map (fun e => 2 + strWords e.2)).sum := by
  induction h with
  | nil => rfl
  | cons h1 _ ih => simp [h1.1, ih]; omega

theorem writeNames_mid (ns : Names) : ∀ (pre old post : Mem) {a : Nat}, a = pre.length →
    old.length = (ns.map (fun e => 2 + strWords e.2)).sum →
    ∃ ws, IsNames ns ws ∧ writeNames (pre ++ (old ++ post)) a ns = some (pre ++ (ws ++ post)) := by
  induction ns with
  | nil =>
    intro pre old post a _ ho
    obtain rfl := List.length_eq_zero_iff.mp ho
    exact ⟨[], .nil, rfl⟩
  | cons e ns ih =>
    obtain ⟨oid, s⟩ := e
    intro pre old post a ha ho
    simp only [List.map_cons, List.sum_cons] at ho
    obtain ⟨x0, old, rfl, ho1⟩ := consLen (n := 1 + strWords s +
      (ns.map (fun e => 2 + strWords e.2)).sum) (ho.trans (by omega))
    obtain ⟨x1, old, rfl, ho2⟩ := consLen (n := strWords s +
      (ns.map (fun e => 2 + strWords e.2)).sum) (ho1.trans (by omega))
    obtain ⟨o1, o2, rfl, h1, h2⟩ := splitLen ho2
    simp only [writeNames, List.cons_append, List.append_assoc]
    rw [store_mid pre _ x0 _ ha, Option.bind_some]
    have h := store_mid (pre ++ [oid]) (o1 ++ (o2 ++ post)) x1 (BitVec.ofNat 32 (strWords s))
      (a := a + 1) (by simp [ha])
    simp only [List.append_assoc, List.cons_append, List.nil_append] at h
    rw [h, Option.bind_some]
    obtain ⟨ws, hws, h⟩ := storeBytes_mid s (pre ++ [oid, BitVec.ofNat 32 (strWords s)]) o1
      (o2 ++ post) (k := 4 * (a + 2)) (by simp [ha]) h1
    simp only [List.append_assoc, List.cons_append, List.nil_append] at h
    rw [h, Option.bind_some]
    obtain ⟨ws', hws', h⟩ := ih (pre ++ [oid, BitVec.ofNat 32 (strWords s)] ++ ws) o2 post
      (a := a + (strWords s + 2)) (by simp [ha, hws.1]) h2
    simp only [List.append_assoc, List.cons_append, List.nil_append] at h
    rw [h]
    exact ⟨_, .cons hws hws', by simp⟩

theorem insertName_new {acc : Names} {oid : W} {s : List Byte} (h : ∀ e ∈ acc, e.1 ≠ oid) :
    insertName acc oid s = acc ++ [(oid, s)] := by
  unfold insertName
  rw [if_neg]
  simp only [List.any_eq_true, decide_eq_true_eq, not_exists, not_and]
  exact h

theorem readNames_mid {ns : Names} {ws : List W} (h : IsNames ns ws) :
    (∀ e ∈ ns, (0#8) ∉ e.2 ∧ strWords e.2 < 2 ^ 32) →
    ∀ (acc : Names) (pre post : Mem) {a : Nat}, a = pre.length →
    ((acc ++ ns).map Prod.fst).Nodup →
    readNames (pre ++ (ws ++ post)) a acc ns.length = some (acc ++ ns) := by
  induction h with
  | nil => intro _ acc pre post a _ _; simp [readNames]
  | @cons oid s rest ws ws' h1 h2 ih =>
    intro hn acc pre post a ha hnd
    simp only [readNames, List.length_cons, List.cons_append, List.append_assoc]
    rw [load_mid pre _ _ ha, Option.bind_some]
    have h := load_mid (pre ++ [oid]) (ws ++ (ws' ++ post)) (BitVec.ofNat 32 (strWords s))
      (a := a + 1) (by simp [ha])
    simp only [List.append_assoc, List.cons_append, List.nil_append] at h
    rw [h, Option.bind_some]
    have hs := hn (oid, s) (by simp)
    have h := cstrAt_mid s hs.1 ws (pre ++ [oid, BitVec.ofNat 32 (strWords s)]) (ws' ++ post) h1
      (a := a + 2) (by simp [ha])
    simp only [List.append_assoc, List.cons_append, List.nil_append] at h
    rw [h, Option.bind_some, toNat_len hs.2, insertName_new]
    · have h := ih (fun e he => hn e (by simp [he])) (acc ++ [(oid, s)])
        (pre ++ [oid, BitVec.ofNat 32 (strWords s)] ++ ws) post
        (a := a + (strWords s + 2)) (by simp [ha, h1.1]) (by simpa using hnd)
      simp only [List.append_assoc, List.cons_append, List.nil_append] at h
      exact h
    · intro e he heq
      simp only [List.map_append, List.map_cons] at hnd
      exact (List.nodup_append.mp hnd).2.2 e.1 (List.mem_map_of_mem he) oid (by simp) heq

end Verif.Image
