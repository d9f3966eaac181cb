import Verif.Abstract.Main
/-!
# C82: an object is an instance of its abstraction
-/
namespace Verif.Abstract
open Verif.Atom Verif.Words Verif.Values
open Verif.Instance (Ev)
open Verif.BindMap (BMap Slot)
open Verif.Match (Obj Heap Opc Tol isWild isVar isIPtr isRPtr Named SameAtom)
open Verif.Unify (Leaf Place Ok Ground Pair Fits GoodSlot Good)

theorem ok_grow {h h' : Heap} (hh : ∀ a o, h a = some o → h' a = some o) {oc : Opc} {V : Word → Prop}
    {H : Obj → Nat → Prop} {X : Place} (hX : Ok h oc V H X) : Ok h' oc V H X := by
  induction hX with
  | word h1 h2 h3 => exact Ok.word h1 h2 h3
  | sub h1 _ ih => exact Ok.sub h1 ih
  | ref h1 h2 _ ih => exact Ok.ref h1 h2 ih
  | data h1 h2 h3 h4 h5 => exact Ok.data h1 h2 h3 h4 h5
  | str h1 h2 h3 h4 h5 _ ih => exact Ok.str h1 h2 h3 h4 h5 ih
  | named h1 h2 h3 => exact Ok.named (hh _ _ h1) h2 h3
  | obj h1 h2 h3 h4 h5 _ ih => exact Ok.obj (hh _ _ h1) h2 h3 h4 h5 ih

theorem ground_of_source {h : Heap} {K : Kinds} {X : Place} (hX : Source h K X) : Ground h K.oc X := by
  unfold Source at hX
  unfold Ground
  induction hX with
  | word h1 h2 h3 => exact Ok.word h1 h2 h3
  | sub h1 _ ih => exact Ok.sub h1 ih
  | ref h1 h2 _ ih => exact Ok.ref h1 h2 ih
  | data h1 h2 h3 h4 h5 => exact Ok.data h1 h2 h3 h4 h5
  | str h1 h2 h3 h4 h5 _ ih => exact Ok.str h1 h2 h3 h4 trivial ih
  | named h1 h2 h3 => exact Ok.named h1 h2 h3
  | obj h1 h2 h3 h4 h5 _ ih => exact Ok.obj h1 h2 h3 h4 h5 ih

/-- What is abstracted to a pattern is an instance of it. -/
theorem fits_of_abs {h0 h : Heap} (hh : ∀ a o, h0 a = some o → h a = some o) {K : Kinds} (hs : Shaped h0 K) {t : Tol}
    (ht : 0 < t.time) {m : BMap} {P : Pair} (hA : Abs h K t (SameAtom t) m P) (hg : Ground h0 K.oc P.place) :
    Fits h K.oc t (SameAtom t) m P := by
  unfold Ground at hg
  induction hA with
  | atom h1 h2 h3 h4 => exact Fits.varAtom h2 h3 h1 h4
  | value h1 h2 h3 h4 h5 h6 => exact Fits.varStr h4 h5 h1 h6
  | @sub o w p v x h1 h2 h3 h4 _ ih =>
    cases hg with
    | word g1 _ _ => exact absurd h1 g1
    | sub _ g => exact Fits.sub h1 h4 (ih g)
    | ref g _ _ => rw [(Verif.Match.desc_cases.2.2.2 g).2.2] at h1; cases h1
  | ont h1 h2 h3 h4 h5 h6 h7 => exact Fits.ref h1 h6 h2 h7 (Fits.named h3 h4 (Or.inr (Or.inl h5)))
  | ent h1 h2 h3 h4 h5 h6 h7 => exact Fits.varObj h6 h7 h1 h2 (Fits.named h3 h4 (Or.inl h5))
  | ref h1 h2 h3 h4 _ ih =>
    cases hg with
    | word _ g1 _ => exact absurd h1 g1
    | sub g _ => rw [(Verif.Match.desc_cases.2.2.2 h1).2.2] at g; cases g
    | ref _ g1 g2 =>
      rw [g1] at h2
      cases h2
      exact Fits.ref h1 h3 g1 h4 (ih g2)
  | str h1 h2 h3 h4 _ ih =>
    cases hg with
    | data g1 g2 =>
      obtain rfl := Option.some.inj (g1.symm.trans h1)
      rw [h3] at g2; cases g2
    | str g1 g2 g3 g4 g5 g6 =>
      obtain rfl := Option.some.inj (g1.symm.trans h1)
      exact Fits.str h1 h2 h3 h4 fun k a b k1 k2 ha hb => ih k a b k1 k2 ha hb (g6 k a k1 k2 ha)
  | @kept o a w h1 h2 h3 =>
    have hg' : Ground h K.oc (.obj a) := ok_grow hh hg
    exact Unify.fits_of_is ht (Unify.is_refl hg') hg' hg'
  | @made o p a b w rs h1 h2 h3 h4 h5 h6 _ ih =>
    have hnn : ¬ Named K.oc w := fun hn => by rw [hs.named w hn] at h5; cases h5
    cases hg with
    | named g1 g2 g3 =>
      rw [hh _ _ g1] at h1
      cases h1
      rw [g2] at h3
      cases h3
      exact absurd g3 hnn
    | obj g1 g2 g3 g4 g5 g6 =>
      rw [hh _ _ g1] at h1
      cases h1
      rw [g2] at h3
      cases h3
      have hc := hs.count a o w rs g1 g2 h5
      refine Fits.obj (hh _ _ g1) h2 g2 h4 hnn (fun k k1 k2 => ?_) fun k x y k1 k2 hx hy => ?_
      · obtain ⟨x, y, hx, hy, -⟩ := h6 (k - 1) _ (List.getElem?_eq_getElem (by omega))
        rw [show k - 1 + 1 = k by omega] at hx hy
        exact ⟨x, y, hx, hy⟩
      · have hr := List.getElem?_eq_getElem (show k - 1 < rs.length by omega)
        obtain ⟨x', y', hx', hy', e1, e2⟩ := h6 (k - 1) _ hr
        have e : k - 1 + 1 = k := by omega
        rw [e] at hx' hy'
        obtain rfl := Option.some.inj (hx'.symm.trans hx)
        obtain rfl := Option.some.inj (hy'.symm.trans hy)
        cases hrole : rs[k - 1] with
        | lift =>
          rw [hrole] at hr
          exact ih (k - 1) x' y' hr (by rw [e]; exact hx) (by rw [e]; exact hy) (g6 k x' k1 k2 hx)
        | keep =>
          rw [hrole] at hr
          have hlf := hs.keep a o w rs (k - 1) x' g1 g2 h5 hr (by rw [e]; exact hx)
          have := e1 hrole
          subst this
          exact Fits.atom hlf hlf (Or.inl rfl)
        | free => exact Fits.wild (e2 hrole)

/-- Abstracting object `a` with the variables of `m` succeeds. What was there stays, new variables come after the
others, the map remains good, and no two variables have the same entity or the same atom if that was so before.
Variables stand for the entities and values of `a` in the pattern `b` (`Abs`), of which `a` is an instance. -/
def Abstracted (K : Kinds) (t : Tol) (D : Word → Word → Prop) (H : List Obj) (m : BMap) (a : Nat) (first : Int) : Prop :=
  Ev fun g => ∃ H' m' b, absObject K t g H m a false first = some (H', m', b) ∧ H <+: H' ∧
    m.slots <+: m'.slots ∧ Good (heapOf H') K.oc m' ∧ Tight m' ∧ (Distinct t m → Distinct t m') ∧
    (Small H.length H' → m'.slots.length ≤ 4096 →
      Abs (heapOf H') K t D m' (.obj a b) ∧ Fits (heapOf H') K.oc t D m' (.obj a b))

/-- C82: for all ground objects and good maps. -/
def C82_full : Prop :=
  ∀ (K : Kinds) (t : Tol) (H : List Obj) (m : BMap) (a : Nat) (first : Int), 0 < t.time → Shaped (heapOf H) K →
    Ground (heapOf H) K.oc (.obj a) → Good (heapOf H) K.oc m → Tight m → Abstracted K t Eq H m a first

/-- C82, partial: when structures other than sets and plain objects have no pointers in them, the search for
structures starts inside the map, and texts and durations are compared as numbers are. -/
theorem C82_abstracted_partial (K : Kinds) (t : Tol) (H : List Obj) (m : BMap) (a : Nat) (first : Int)
    (ht : 0 < t.time) (hs : Shaped (heapOf H) K) (ha : Source (heapOf H) K (.obj a)) (hm : Good (heapOf H) K.oc m)
    (htm : Tight m) (hst : Start m first) : Abstracted K t (SameAtom t) H m a first := by
  have h := all_made (t := t) ht hs (m0 := m) ha
  refine Ev.mono h fun g hg => ?_
  obtain ⟨H', m', b, h1, h2, h3, h4, h5⟩ := hg H m first ⟨List.prefix_rfl, hm, htm, id⟩ hst
  have hh : ∀ a o, heapOf H a = some o → heapOf H' a = some o := fun a o ho => get_prefix h3 ho
  refine ⟨H', m', b, h1, h3, h4, fun v s hv => ?_, h2.tight, h2.dist, fun h6 h7 => ?_⟩
  · have hg := h2.good v s hv
    cases s with
    | null => exact hg
    | unbound => exact hg
    | bound x =>
      cases x with
      | atom => exact hg
      | struct c => exact ⟨ok_grow hh hg.1, hg.2⟩
      | obj r => exact ok_grow hh hg
  · have hA := h5 H' m' List.prefix_rfl List.prefix_rfl h6 h7
    exact ⟨hA, fits_of_abs hh hs ht hA (ground_of_source ha)⟩

/-! ## Timings in step -/

/-- The variables of the timings, once there are any, remain. -/
def Still (m m' : BMap) : Prop := m.fwdAfter ≠ -1 → m'.fwdAfter = m.fwdAfter ∧ m'.fwdBefore = m.fwdBefore

theorem Still.refl (m : BMap) : Still m m := fun _ => ⟨rfl, rfl⟩

theorem Still.trans {a b c : BMap} (h : Still a b) (h' : Still b c) : Still a c := fun ha => by
  obtain ⟨h1, h2⟩ := h ha
  obtain ⟨h3, h4⟩ := h' (by rw [h1]; exact ha)
  exact ⟨h3.trans h1, h4.trans h2⟩

theorem still_var (m : BMap) (v : BindMap.Val) (r : Option Nat) : Still m (varOf m v r).1 := by
  cases r <;> exact fun _ => ⟨rfl, rfl⟩

theorem still_struct {t : Tol} {f : Nat} {m : BMap} {src : Code} {s : Nat} {first : Int} {v : BMap × Word}
    (h : structVariable t f m src s first = some v) : Still m v.1 := by
  unfold structVariable at h
  simp only [Option.bind_eq_some_iff] at h
  obtain ⟨r, -, h⟩ := h
  cases r with
  | some i => cases h; exact Still.refl _
  | none =>
    simp only [Option.map_eq_some_iff] at h
    obtain ⟨c, -, rfl⟩ := h
    exact still_var _ _ _

theorem still_row {rec : Part → Nat → Nat → Int → Option Part}
    (hr : ∀ P i w first P', rec P i w first = some P' → Still P.map P'.map) (l : List (Nat × Int)) (P P' : Part)
    (h : absRow rec l P = some P') : Still P.map P'.map := by
  induction l generalizing P with
  | nil => cases h; exact Still.refl _
  | cons x l ih =>
    simp only [absRow, Option.bind_eq_some_iff] at h
    obtain ⟨P1, h1, h2⟩ := h
    exact (hr _ _ _ _ _ h1).trans (ih _ h2)

theorem still_members {rec : Part → Nat → Nat → Option Part}
    (hr : ∀ P i w P', rec P i w = some P' → Still P.map P'.map) (k i w : Nat) (P P' : Part)
    (h : absMembers rec k i w P = some P') : Still P.map P'.map := by
  induction k generalizing i w P with
  | zero => cases h; exact Still.refl _
  | succ k ih =>
    simp only [absMembers, Option.bind_eq_some_iff] at h
    obtain ⟨P1, h1, h2⟩ := h
    exact (hr _ _ _ _ h1).trans (ih _ _ _ h2)

theorem still_end (P : Part) : Still P.map (endFact P).map := by
  intro h
  have h' : ¬ ((P.put 4 (wildcard 0)).put 5 (wildcard 0)).map.fwdAfter = -1 := h
  unfold endFact
  simp only [if_neg h']
  exact ⟨rfl, rfl⟩

theorem end_code (Q : Part) : (endFact Q).obj.code = put (put Q.obj.code 4 (wildcard 0)) 5 (wildcard 0) := by
  unfold endFact
  by_cases h : ((Q.put 4 (wildcard 0)).put 5 (wildcard 0)).map.fwdAfter = -1
  · simp only [if_pos h]; rfl
  · simp only [if_neg h]; rfl

theorem still_fact {rec : Part → Nat → Nat → Int → Option Part}
    (hr : ∀ P i w first P', rec P i w first = some P' → Still P.map P'.map) {heap : List Obj} {m : BMap} {w : Word}
    {force : Bool} {first : Int} {P : Part} (h : absFact rec heap m w force first = some P) : Still m P.map := by
  unfold absFact at h
  simp only [Option.bind_eq_some_iff] at h
  obtain ⟨P1, h1, h⟩ := h
  have s0 : Still m (if m.fwdAfter = -1 then { m with first := BitVec.ofNat 16 m.slots.length } else m) := by
    intro hm
    rw [if_neg hm]
    exact ⟨rfl, rfl⟩
  refine s0.trans ((still_row hr _ _ _ h1).trans ?_)
  by_cases hc : P1.map.fwdAfter ≠ -1 ∧ force
  · rw [if_pos hc] at h
    cases h
    exact still_end ((P1.put 2 _).put 3 _)
  · rw [if_neg hc] at h
    simp only [Option.map_eq_some_iff] at h
    obtain ⟨P2, h2, rfl⟩ := h
    exact (still_row hr _ _ _ h2).trans (still_end _)

theorem still_all (K : Kinds) (t : Tol) (f : Nat) :
    (∀ H m a force first r, absObject K t f H m a force first = some r → Still m r.2.1) ∧
    (∀ o P i w first P', absMember K t f o P i w first = some P' → Still P.map P'.map) := by
  induction f with
  | zero => exact ⟨fun _ _ _ _ _ _ h => (by cases h), fun _ _ _ _ _ _ h => (by cases h)⟩
  | succ f ih =>
    obtain ⟨ih1, ih2⟩ := ih
    refine ⟨fun H m a force first r h => ?_, fun o P i w first P' h => ?_⟩
    · simp only [absObject] at h
      cases ho : H[a]? with
      | none => rw [ho] at h; cases h
      | some o =>
        simp only [ho] at h
        cases hw : o.code[0]? with
        | none => simp only [hw] at h; cases h
        | some w =>
          simp only [hw] at h
          split at h
          · simp only [Option.map_eq_some_iff] at h
            obtain ⟨P, h, rfl⟩ := h
            exact still_fact (ih2 o) h
          split at h
          · simp only [Option.map_eq_some_iff] at h
            obtain ⟨P, h, rfl⟩ := h
            exact still_fact (ih2 o) h
          split at h
          · split at h
            · cases h
            simp only [Option.map_eq_some_iff] at h
            obtain ⟨P, h, rfl⟩ := h
            exact still_row (ih2 o) _ _ _ h
          split at h
          · simp only [Option.map_eq_some_iff] at h
            obtain ⟨P, h, rfl⟩ := h
            exact still_row (ih2 o) _ _ _ h
          split at h
          · simp only [Option.map_eq_some_iff] at h
            obtain ⟨P, h, rfl⟩ := h
            exact still_row (ih2 o) _ _ _ h
          · cases h
            exact Still.refl _
    · simp only [absMember] at h
      split at h
      · cases h
      split at h
      · split at h
        · cases h
        split at h
        · cases h
        split at h
        · cases h
          exact Still.refl _
        split at h
        · simp only [objectVariable, Option.map_eq_some_iff] at h
          obtain ⟨v, ⟨x, -, rfl⟩, rfl⟩ := h
          exact still_var _ _ _
        · simp only [Option.map_eq_some_iff] at h
          obtain ⟨v, h, rfl⟩ := h
          exact ih1 _ _ _ _ _ _ h
      split at h
      · split at h
        · cases h
        split at h
        · simp only [Option.map_eq_some_iff] at h
          obtain ⟨v, h, rfl⟩ := h
          exact still_struct h
        split at h
        · have hs := still_members (fun P i w P' h => ih2 _ _ _ _ _ _ h) _ _ _ _ _ h
          exact hs
        · simp only [Option.map_eq_some_iff] at h
          obtain ⟨v, h, rfl⟩ := h
          exact still_struct h
      · simp only [atomVariable, Option.map_eq_some_iff] at h
        obtain ⟨v, ⟨x, -, rfl⟩, rfl⟩ := h
        exact still_var _ _ _

/-- C82: abstracting a fact in step (`force_sync`), when the map has the variables of the timings, gives those
variables to its times, and they remain those of the timings. -/
theorem C82_in_step (K : Kinds) (t : Tol) (f : Nat) (H : List Obj) (m : BMap) (a : Nat) (first : Int)
    (H' : List Obj) (m' : BMap) (b : Nat) (o : Obj) (w : Word) (ho : H[a]? = some o) (hw : o.code[0]? = some w)
    (hk : asOpcode w = K.oc.fact ∨ asOpcode w = K.oc.antiFact) (hm : m.fwdAfter ≠ -1)
    (h : absObject K t f H m a true first = some (H', m', b)) :
    ∃ p, H'[b]? = some p ∧ p.code[2]? = some (vl m.fwdAfter.toNat) ∧ p.code[3]? = some (vl m.fwdBefore.toNat) ∧
      m'.fwdAfter = m.fwdAfter ∧ m'.fwdBefore = m.fwdBefore := by
  obtain ⟨s1, s2⟩ := (still_all K t f).1 _ _ _ _ _ _ h hm
  cases f with
  | zero => cases h
  | succ f =>
    have hf : ∃ w', (absFact (absMember K t f o) H m w' true first).map Part.done = some (H', m', b) := by
      simp only [absObject, ho, hw] at h
      split at h
      · exact ⟨_, h⟩
      · rename_i hn
        rw [if_pos (hk.resolve_left hn)] at h
        exact ⟨_, h⟩
    obtain ⟨w', hf⟩ := hf
    simp only [Option.map_eq_some_iff] at hf
    obtain ⟨P, hf, hP⟩ := hf
    simp only [absFact, if_neg hm, Option.bind_eq_some_iff] at hf
    obtain ⟨P1, h1, hf⟩ := hf
    obtain ⟨e1, e2⟩ := still_row (fun P i w first P' h => (still_all K t f).2 o P i w first P' h) _ _ _ h1 hm
    have e1 : P1.map.fwdAfter = m.fwdAfter := e1
    have e2 : P1.map.fwdBefore = m.fwdBefore := e2
    simp only [e1, e2, and_true] at hf
    rw [if_pos hm] at hf
    cases hf
    simp only [Part.done, Prod.mk.injEq] at hP
    obtain ⟨rfl, rfl, rfl⟩ := hP
    refine ⟨_, List.getElem?_concat_length, ?_, ?_, s1, s2⟩
    · rw [end_code]
      simp only [Part.put]
      rw [put_keep _ (by decide) (by simp only [put_length]; omega),
        put_keep _ (by decide) (by simp only [put_length]; omega),
        put_keep _ (by decide) (by simp only [put_length]; omega), put_get_self]
    · rw [end_code]
      simp only [Part.put]
      rw [put_keep _ (by decide) (by simp only [put_length]; omega),
        put_keep _ (by decide) (by simp only [put_length]; omega), put_get_self]

/-! ## What is wrong -/

/-- Commands are of class 30; class 50 has operators of its own. -/
def exKinds : Kinds := ⟨Match.exOpc, 30, fun c => c == 50⟩

/-- A command with the durations of 200 and 100 ms. -/
def oddCmd : Obj := { code := [object 30 3, deviceFunction 1, iPointer 4, float 0, set 2, iPointer 7, iPointer 10,
  duration, 0, 200000, duration, 0, 100000] }

theorem at_mem {c : Code} {i n : Nat} {P : Word → Prop} (l : List Word) (hl : (c.drop (i + 1)).take n = l)
    (h : ∀ x ∈ l, P x) : ∀ k x, 1 ≤ k → k ≤ n → c[i + k]? = some x → P x := by
  intro k x k1 k2 hx
  refine h x (hl ▸ List.mem_of_getElem? (i := k - 1) ?_)
  rw [List.getElem?_take, if_pos (by omega), List.getElem?_drop, ← hx]
  congr 1
  omega

theorem at_mem' {c : Code} {n : Nat} {P : Word → Prop} (l : List Word) (hl : (c.drop 1).take n = l)
    (h : ∀ x ∈ l, P x) : ∀ k x, 1 ≤ k → k ≤ n → c[k]? = some x → P x := by
  intro k x k1 k2 hx
  exact at_mem (i := 0) l (by simpa using hl) h k x k1 k2 (by rwa [Nat.zero_add])

theorem two {P : Word → Prop} {x y : Word} (hx : P x) (hy : P y) : ∀ w ∈ [x, y], P w := by
  simp only [List.mem_cons, List.not_mem_nil, or_false, forall_eq_or_imp, forall_eq]
  exact ⟨hx, hy⟩

/-- A word that is a leaf. -/
theorem ok_leaf {h : Heap} {oc : Opc} {H : Obj → Nat → Prop} {o : Obj} {w : Word} (hw : Leaf w) :
    Ok h oc Leaf H (.word o w) := Ok.word hw.2.2.1 hw.2.2.2 hw

theorem odd_ground : Ground (heapOf [oddCmd]) Match.exOpc (.obj 0) := by
  have hd : ∀ w, w = iPointer 7 ∨ w = iPointer 10 → Ok (heapOf [oddCmd]) Match.exOpc Leaf (fun _ _ => True)
      (.word oddCmd w) := by
    rintro w (rfl | rfl)
    · exact Ok.sub (by decide) (Ok.data (w := duration) (by decide) (by decide) (by decide) (by decide)
        (at_mem [0, 200000] rfl (two (by decide) (by decide))))
    · exact Ok.sub (by decide) (Ok.data (w := duration) (by decide) (by decide) (by decide) (by decide)
        (at_mem [0, 100000] rfl (two (by decide) (by decide))))
  refine Ok.obj (o := oddCmd) (w := object 30 3) rfl rfl (by decide) (by decide) (by decide)
    (at_mem' [deviceFunction 1, iPointer 4, float 0] (by decide) ?_)
  simp only [List.mem_cons, List.not_mem_nil, or_false, forall_eq_or_imp, forall_eq]
  refine ⟨ok_leaf (by decide), Ok.sub (by decide) (Ok.str (w := set 2) (by decide) (by decide) (by decide) (by decide)
    trivial (at_mem [iPointer 7, iPointer 10] (by decide) ?_)), ok_leaf (by decide)⟩
  simp only [List.mem_cons, List.not_mem_nil, or_false, forall_eq_or_imp, forall_eq]
  exact ⟨hd _ (Or.inl rfl), hd _ (Or.inr rfl)⟩

theorem ex_named (w : Word) (h : Named exKinds.oc w) : roles exKinds w = none := by
  unfold Named exKinds Match.exOpc at h
  unfold roles exKinds Match.exOpc
  simp only at h ⊢
  rcases h with h | h | h | h <;> simp only [h] <;> decide

/-- Objects have the shapes of the example's classes. -/
theorem ex_shaped {H : List Obj} (hH : ∀ o ∈ H, ∃ w, o.code[0]? = some w ∧
    (∀ rs ∈ roles exKinds w, count w = rs.length) ∧
    (asOpcode w = 8 ∨ asOpcode w = 9 → w = object (asOpcode w) 5) ∧ (asOpcode w = 30 → ∀ x ∈ o.code[1]?, Leaf x)) :
    Shaped (heapOf H) exKinds := by
  have hg : ∀ a o w, heapOf H a = some o → o.code[0]? = some w → (∀ rs ∈ roles exKinds w, count w = rs.length) ∧
      (asOpcode w = 8 ∨ asOpcode w = 9 → w = object (asOpcode w) 5) ∧
      (asOpcode w = 30 → ∀ x ∈ o.code[1]?, Leaf x) := by
    intro a o w ho hw
    obtain ⟨w', hw', h⟩ := hH o (List.mem_of_getElem? ho)
    obtain rfl := Option.some.inj (hw.symm.trans hw')
    exact h
  refine ⟨fun a o w rs ho hw hr => (hg a o w ho hw).1 rs hr, fun a o w ho hw h => (hg a o w ho hw).2.1 h,
    fun a o w rs k x ho hw hr hk hx => ?_, ex_named⟩
  by_cases hc : asOpcode w = 30
  · have : rs = [.keep, .lift, .free] := by
      unfold roles exKinds Match.exOpc at hr
      simp only [hc] at hr
      exact (Option.some.inj hr).symm
    subst this
    match k with
    | 0 => exact (hg a o w ho hw).2.2 hc x hx
    | 1 => cases hk
    | 2 => cases hk
    | k + 3 => cases hk
  · unfold roles exKinds at hr
    rw [if_neg hc] at hr
    exfalso
    have : Role.keep ∈ rs := List.mem_of_getElem? hk
    split at hr
    · cases hr; revert this; decide
    · split at hr
      · cases hr; revert this; decide
      · split at hr
        · cases hr; revert this; decide
        · cases hr

/-- C82 fails. Durations of 200 and 100 ms get one variable: the words of a duration are compared as numbers are.
And the search for a structure reads past the map when it is told to start right after its last entry
(binding_map.cpp:572-575). -/
theorem C82_one_variable_violated : ¬ C82_full ∧
    (∀ f, absObject exKinds Match.exTol (f + 10) [oddCmd] .empty 0 false 0 = some ([oddCmd,
      { code := [object 30 3, deviceFunction 1, iPointer 4, wildcard 0, set 2, vlPointer 0, vlPointer 0] }],
      { slots := [.bound (.struct [duration, 0, 200000])] }, 1)) ∧
    (∀ f (o : Obj) r, structVariable Match.exTol f { slots := [.bound (.obj r)] } o.code 0 1 = none) := by
  refine ⟨fun hf => ?_, fun f => rfl, fun f o r => ?_⟩
  · obtain ⟨f, hf⟩ := hf exKinds Match.exTol [oddCmd] .empty 0 0 (by decide) (ex_shaped (by
        simp only [List.mem_cons, List.not_mem_nil, or_false, forall_eq]
        exact ⟨object 30 3, rfl, by decide, by decide, fun _ x hx => by cases hx; decide⟩)) odd_ground
      (fun v s h => by cases h) (fun v c w h => by cases h)
    obtain ⟨H', m', b, h1, -, -, -, -, -, h2⟩ := hf (f + 10) (by omega)
    have h3 : absObject exKinds Match.exTol (f + 10) [oddCmd] .empty 0 false 0 = some ([oddCmd,
      { code := [object 30 3, deviceFunction 1, iPointer 4, wildcard 0, set 2, vlPointer 0, vlPointer 0] }],
      { slots := [.bound (.struct [duration, 0, 200000])] }, 1) := rfl
    rw [h3] at h1
    simp only [Option.some.injEq, Prod.mk.injEq] at h1
    obtain ⟨rfl, rfl, rfl⟩ := h1
    obtain ⟨-, hF⟩ := h2 (fun a o h1 h => by
      match a with
      | 0 => simp at h1
      | 1 => cases h; decide
      | a + 2 => cases h) (by decide)
    cases hF with
    | obj g1 g2 g3 g4 g5 g6 g7 =>
      cases g1
      cases g2
      cases g3
      have hw := g7 2 (iPointer 4) (iPointer 4) (by decide) (by decide) rfl rfl
      cases hw with
      | wild h => exact absurd h (by decide)
      | varAtom h => exact absurd h (by decide)
      | varStr h => exact absurd h (by decide)
      | varObj h => exact absurd h (by decide)
      | atom h => exact absurd h (by decide)
      | ref h => exact absurd h (by decide)
      | sub _ _ h =>
        cases h with
        | @time _ _ _ _ w _ _ h _ hd =>
          have h : some (set 2) = some w := h
          cases h
          exact absurd hd (by decide)
        | @data _ _ _ _ w h _ hd =>
          have h : some (set 2) = some w := h
          cases h
          exact absurd hd (by decide)
        | @str _ _ _ _ w h _ _ _ hm =>
          have h : some (set 2) = some w := h
          cases h
          have hw := hm 2 (iPointer 10) (vlPointer 0) (by decide) (by decide) rfl rfl
          cases hw with
          | wild h => exact absurd h (by decide)
          | varAtom _ _ h => exact absurd h (by decide)
          | varObj _ _ h => exact absurd h (by decide)
          | atom _ h => exact absurd h (by decide)
          | ref h => exact absurd h (by decide)
          | sub _ h => exact absurd h (by decide)
          | @varStr _ _ _ _ c _ hs _ h =>
            have hs : some (Slot.bound (.struct [duration, 0, 200000])) = some (Slot.bound (.struct c)) := hs
            cases hs
            cases h with
            | @time _ _ _ _ w _ _ h _ hd =>
              have h : some duration = some w := h
              cases h
              exact absurd hd (by decide)
            | @str _ _ _ _ w h _ hd =>
              have h : some duration = some w := h
              cases h
              exact absurd hd (by decide)
            | @data _ _ _ _ w h _ _ _ hm =>
              have h : some duration = some w := h
              cases h
              obtain ⟨a, b, ha, hb, he⟩ := hm 2 (by decide) (by decide)
              have ha : some 100000 = some a := ha
              have hb : some 200000 = some b := hb
              cases ha
              cases hb
              exact absurd he (by decide)
  · unfold structVariable
    simp [roundVar]

/-! ## A case of the partial theorem -/

/-- The fact that, between 1 and 2 s, attribute 3 of entity 2 is a vector. -/
def exFacts : List Obj := [
  { code := [object 8 5, rPointer 0, iPointer 6, iPointer 9, float 0x3F800000, float 0x3F800000,
      timestamp, 0, 1000000, timestamp, 0, 2000000], refs := [1] },
  { code := [object 7 4, rPointer 0, rPointer 1, iPointer 5, float 0x3F800000, object 50 2, float 0x3F800000,
      float 0x40000000], refs := [2, 3] },
  { code := [object 1 1, float 0x3F800000] },
  { code := [object 2 1, float 0x3F800000] }]

def exVars : BMap :=
  { slots := [.bound (.obj 2), .bound (.struct [object 50 2, float 0x3F800000, float 0x40000000]),
      .bound (.struct [timestamp, 0, 1000000]), .bound (.struct [timestamp, 0, 2000000])]
    first := 0, fwdAfter := 2, fwdBefore := 3 }

def exPatterns : List Obj := [
  { code := [object 7 4, vlPointer 0, rPointer 0, vlPointer 1, wildcard 0], refs := [3] },
  { code := [object 8 5, rPointer 0, vlPointer 2, vlPointer 3, wildcard 0, wildcard 0], refs := [4] }]

/-- The hypotheses of `C82_abstracted_partial` hold for a fact about a value. Its abstraction has a variable for
the entity, one for the value, and two for the times. Another fact abstracted in step has the same ones. -/
theorem C82_nonvacuous : Shaped (heapOf exFacts) exKinds ∧ Source (heapOf exFacts) exKinds (.obj 0) ∧
    Good (heapOf exFacts) exKinds.oc .empty ∧ Tight .empty ∧ Start .empty 0 ∧
    absObject exKinds Match.exTol 10 exFacts .empty 0 false 0 = some (exFacts ++ exPatterns, exVars, 5) ∧
    absObject exKinds Match.exTol 10 (exFacts ++ exPatterns) exVars 0 true 0 =
      some (exFacts ++ exPatterns ++ [exPatterns[0],
        { code := [object 8 5, rPointer 0, vlPointer 2, vlPointer 3, wildcard 0, wildcard 0], refs := [6] }],
        exVars, 7) ∧
    Small exFacts.length (exFacts ++ exPatterns) ∧ exVars.slots.length ≤ 4096 := by
  refine ⟨ex_shaped (by
      unfold exFacts
      simp only [List.mem_cons, List.not_mem_nil, or_false, forall_eq_or_imp, forall_eq]
      exact ⟨⟨object 8 5, rfl, by decide, by decide, fun h => absurd h (by decide)⟩,
        ⟨object 7 4, rfl, by decide, by decide, fun h => absurd h (by decide)⟩,
        ⟨object 1 1, rfl, by decide, by decide, fun h => absurd h (by decide)⟩,
        ⟨object 2 1, rfl, by decide, by decide, fun h => absurd h (by decide)⟩⟩), ?_, fun v s h => (by cases h), fun v c w h => (by cases h), Or.inl (by decide),
    rfl, rfl, fun a o h1 h => ?_, by decide⟩
  · have hT : ∀ w, w = iPointer 6 ∨ w = iPointer 9 → Source (heapOf exFacts) exKinds (.word exFacts[0] w) := by
      rintro w (rfl | rfl)
      · exact Ok.sub (by decide) (Ok.data (w := timestamp) (by decide) (by decide) (by decide) (by decide)
          (at_mem [0, 1000000] rfl (two (by decide) (by decide))))
      · exact Ok.sub (by decide) (Ok.data (w := timestamp) (by decide) (by decide) (by decide) (by decide)
          (at_mem [0, 2000000] rfl (two (by decide) (by decide))))
    have hV : Source (heapOf exFacts) exKinds (.obj 1) := by
      refine Ok.obj (o := exFacts[1]) (w := object 7 4) rfl rfl (by decide) (by decide) (by decide)
        (at_mem' [rPointer 0, rPointer 1, iPointer 5, float 0x3F800000] (by decide) ?_)
      simp only [List.mem_cons, List.not_mem_nil, or_false, forall_eq_or_imp, forall_eq]
      refine ⟨Ok.ref (by decide) (a := 2) (by decide) (Ok.named (o := exFacts[2]) rfl rfl (by decide)),
        Ok.ref (by decide) (a := 3) (by decide) (Ok.named (o := exFacts[3]) rfl rfl (by decide)), ?_,
        ok_leaf (by decide)⟩
      have hm : ∀ x ∈ [float 0x3F800000, float 0x40000000], Leaf x := two (by decide) (by decide)
      refine Ok.sub (by decide) (Ok.str (w := object 50 2) (by decide) (by decide) (by decide) (by decide)
        (fun w hw _ w' k a hw' k1 k2 ha => ?_)
        (at_mem [float 0x3F800000, float 0x40000000] (by decide) fun x hx => ok_leaf (hm x hx)))
      have hw' : some (object 50 2) = some w' := hw'
      cases hw'
      exact at_mem (n := count (object 50 2)) [float 0x3F800000, float 0x40000000] (by decide) hm k a k1 k2 ha
    refine Ok.obj (o := exFacts[0]) (w := object 8 5) rfl rfl (by decide) (by decide) (by decide)
      (at_mem' [rPointer 0, iPointer 6, iPointer 9, float 0x3F800000, float 0x3F800000] (by decide) ?_)
    simp only [List.mem_cons, List.not_mem_nil, or_false, forall_eq_or_imp, forall_eq]
    exact ⟨Ok.ref (by decide) (a := 1) (by decide) hV, hT _ (Or.inl rfl), hT _ (Or.inr rfl), ok_leaf (by decide),
      ok_leaf (by decide)⟩
  · match a, h1 with
    | 4, _ => cases h; decide
    | 5, _ => cases h; decide
    | a + 6, _ => cases h

end Verif.Abstract
