import Verif.Unify.Walk
namespace Verif.Unify
open Verif.Atom Verif.Words Verif.Values
open Verif.Instance (Ev)
open Verif.BindMap (BMap Slot)
open Verif.Match (Obj Heap Opc Tol isWild isVar isIPtr isRPtr Named SameAtom desc_cases)

theorem boundTi_none {m : BMap} {c : Code} {j : Nat} {a b : Word} (ha : c[j + 1]? = some a) (hb : c[j + 2]? = some b)
    (h : ¬ (isVar a = true ∧ isVar b = true)) : boundTi m c j = some none := by
  have : (isVar a && isVar b) = false := by
    cases h1 : isVar a <;> cases h2 : isVar b <;> simp_all
  simp only [boundTi, ha, hb, this, Bool.false_eq_true, if_false]

/-- Data words are compared as atoms. -/
theorem leaf_ends {h : Heap} {oc : Opc} {t : Tol} (ht : 0 < t.time) {ti : Word} (hti : count ti = 2) {τ : Nat → Prop}
    {n : Nat} {o p : Obj} {w v : Word} (hw : Leaf w) (hv : Leaf v) {m : BMap} (hm : Map h oc τ n m) :
    Ends h oc t ti τ n (.word o w p v) m := by
  refine word_ends ht hti (Ok.word hw.2.2.1 hw.2.2.2 hw) (Ok.word hv.2.2.1 hv.2.2.2 fun h => absurd h hv.2.1)
    (fun h => absurd h hw.2.2.1) (fun h => absurd h hw.2.2.2) (fun o' w' p' v' hi hvar => ?_) hm
  cases hi with
  | here => exact absurd hvar hv.2.1
  | sub h => exact absurd h hw.2.2.1
  | ref h => exact absurd h hw.2.2.2

theorem fits_leaf {h : Heap} {oc : Opc} {t : Tol} {D : Word → Word → Prop} {m : BMap} {o p : Obj} {w v : Word}
    (hv : Leaf v) (hf : Fits h oc t D m (.word o w p v)) : SameAtom t w v := by
  cases hf with
  | wild h => exact absurd h hv.1
  | varAtom h => exact absurd h hv.2.1
  | varStr h => exact absurd h hv.2.1
  | varObj h => exact absurd h hv.2.1
  | atom _ _ h => exact h
  | sub _ h => exact absurd h hv.2.2.1
  | ref _ h => exact absurd h hv.2.2.2

/-- Headers that differ. -/
theorem str_differ {h : Heap} {oc : Opc} {t : Tol} {ti : Word} {τ : Nat → Prop} {n : Nat} {o p : Obj} {i j : Nat}
    {w v : Word} (h1 : o.code[i]? = some w) (h2 : p.code[j]? = some v) (hne : w ≠ v) {m : BMap}
    (hm : Map h oc τ n m) : Ends h oc t ti τ n (.str o i p j) m := by
  refine ⟨false, m, (Ev.of fun _ => trivial : Ev fun _ => True).succ.mono fun g hg => ?_,
    Outcome.false hm fun ms _ hi => ?_⟩
  · obtain ⟨g', rfl, -⟩ := hg
    simp only [run, matchStructure, h1, h2, if_pos hne]
  · cases hi with
    | data a1 a2 => rw [h1] at a1; rw [h2] at a2; cases a1; cases a2; exact hne rfl
    | str a1 a2 => rw [h1] at a1; rw [h2] at a2; cases a1; cases a2; exact hne rfl

theorem obj_differ {h : Heap} {oc : Opc} {t : Tol} {ti : Word} {τ : Nat → Prop} {n : Nat} {o p : Obj} {a b : Nat}
    {w v : Word} (h0 : h a = some o) (h0' : h b = some p) (h1 : o.code[0]? = some w) (h2 : p.code[0]? = some v)
    (hne : w ≠ v) {m : BMap} (hm : Map h oc τ n m) : Ends h oc t ti τ n (.obj a b) m := by
  refine ⟨false, m, (Ev.of fun _ => trivial : Ev fun _ => True).succ.mono fun g hg => ?_,
    Outcome.false hm fun ms _ hi => ?_⟩
  · obtain ⟨g', rfl, -⟩ := hg
    simp only [run, matchObject, h0, h0', h1, h2, if_pos hne]
  · cases hi with
    | named a1 a2 =>
      rw [h0] at a1; rw [h0'] at h0; cases h0; cases a1
      rw [h1] at h2; cases h2; exact hne rfl
    | obj a1 a2 a3 a4 =>
      rw [h0] at a1; rw [h0'] at a2; cases a1; cases a2
      rw [h1] at a3; rw [h2] at a4; cases a3; cases a4; exact hne rfl

/-- The call that follows equal headers. -/
theorem str_members {h : Heap} {oc : Opc} {t : Tol} {ti : Word} {o p : Obj} {i j : Nat} {w : Word} {m : BMap}
    {r : Bool × BMap} (h1 : o.code[i]? = some w) (h2 : p.code[j]? = some w) (h0 : count w ≠ 0)
    (hc : getDescriptor w ≠ 0xC7) (hti : w = ti → boundTi m p.code j = some none)
    (hev : Ev fun g => matchFrom h oc t ti g m o i 1 p (j + 1) (count w) = some r) :
    Ev fun g => matchStructure h oc t ti g m o i p j = some r := by
  refine hev.succ.mono fun g hg => ?_
  obtain ⟨g', rfl, hg'⟩ := hg
  simp only [matchStructure, h1, h2, ne_eq, not_true_eq_false, if_false, if_neg h0, if_neg hc]
  by_cases hw : w = ti
  · rw [if_pos hw, hti hw]
    exact hg'
  · rw [if_neg hw]
    exact hg'

/-- What matching does, place by place. -/
theorem all_ends {h : Heap} {oc : Opc} {t : Tol} (ht : 0 < t.time) {ti : Word} (hti : count ti = 2) {τ : Nat → Prop}
    {n : Nat} {X : Place} (hg : Ground h oc X) :
    match X with
    | .word o w =>
      (isIPtr w → ∀ p j, Pattern h oc ti n (.str p j) → Safe h oc τ (.str o (asIndex w).toNat p j) →
        ∀ m, Map h oc τ n m → Ends h oc t ti τ n (.str o (asIndex w).toNat p j) m) ∧
      (isRPtr w → ∀ a, o.refs[(asIndex w).toNat]? = some a → ∀ b, Pattern h oc ti n (.obj b) →
        Safe h oc τ (.obj a b) → ∀ m, Map h oc τ n m → Ends h oc t ti τ n (.obj a b) m)
    | .str o i => ∀ p j, Pattern h oc ti n (.str p j) → Safe h oc τ (.str o i p j) →
        ∀ m, Map h oc τ n m → Ends h oc t ti τ n (.str o i p j) m
    | .obj a => ∀ b, Pattern h oc ti n (.obj b) →
        Safe h oc τ (.obj a b) → ∀ m, Map h oc τ n m → Ends h oc t ti τ n (.obj a b) m := by
  have hE : Ev fun _ : Nat => True := Ev.of fun _ => trivial
  unfold Ground at hg
  induction hg with
  | word h1 h2 h3 => exact ⟨fun h => absurd h h1, fun h => absurd h h2⟩
  | sub h1 _ ih => exact ⟨fun _ => ih, fun h => (by rw [(iptr_flags h1).2.2] at h; cases h)⟩
  | ref h1 h2 _ ih =>
    refine ⟨fun h => (by rw [(iptr_flags h).2.2] at h1; cases h1), fun _ a ha => ?_⟩
    rw [h2] at ha
    cases ha
    exact ih
  | @data o i w h1 h2 h3 h4 h5 =>
    intro p j hp hsafe m hm
    have go : ∀ v, p.code[j]? = some v → (v = w → j + count w < p.code.length ∧
        ∀ k a, 1 ≤ k → k ≤ count w → p.code[j + k]? = some a → Leaf a) → Ends h oc t ti τ n (.str o i p j) m := by
      intro v hv hok
      by_cases hne : w = v
      · subst hne
        obtain ⟨p3, p5⟩ := hok rfl
        by_cases h0 : count w = 0
        · refine ⟨true, m, hE.succ.mono fun g hg => ?_, Outcome.same hm (fun _ => ?_) fun _ _ _ => rfl⟩
          · obtain ⟨g', rfl, -⟩ := hg
            simp only [run, matchStructure, h1, hv, ne_eq, not_true_eq_false, if_false, if_pos h0]
          · refine Fits.data h1 hv h2 (fun hc => ?_) fun k k1 k2 => by omega
            have := h4 hc
            omega
        · by_cases hc : getDescriptor w = 0xC7
          · have h2c := h4 hc
            have a1 := List.getElem?_eq_getElem (show i + 1 < o.code.length by omega)
            have a2 := List.getElem?_eq_getElem (show i + 2 < o.code.length by omega)
            have b1 := List.getElem?_eq_getElem (show j + 1 < p.code.length by omega)
            have b2 := List.getElem?_eq_getElem (show j + 2 < p.code.length by omega)
            obtain ⟨x, hx⟩ : ∃ x, getInt64 o.code (i + 1) = some x := by
              simp only [getInt64, Words.get, a1, Nat.add_assoc, Nat.reduceAdd, a2]
              exact ⟨_, rfl⟩
            obtain ⟨y, hy⟩ : ∃ y, getInt64 p.code (j + 1) = some y := by
              simp only [getInt64, Words.get, b1, Nat.add_assoc, Nat.reduceAdd, b2]
              exact ⟨_, rfl⟩
            refine ⟨Match.synchronous t x y, m, hE.succ.mono fun g hg => ?_,
              Outcome.same hm (fun hb => ?_) fun ms _ hi => ?_⟩
            · obtain ⟨g', rfl, -⟩ := hg
              simp only [run, matchStructure, h1, hv, ne_eq, not_true_eq_false, if_false, if_neg h0, if_pos hc, hx, hy]
            · exact Fits.time h1 hv hc hx hy (by simpa [Match.synchronous] using hb)
            · have e : ∀ k, 1 ≤ k → k ≤ count w → o.code[i + k]? = p.code[j + k]? := by
                cases hi with
                | data g1 g2 g3 g4 => rw [h1] at g1; cases g1; exact g4
                | str g1 _ g3 => rw [h1] at g1; cases g1; rw [h2] at g3; cases g3
              have : getInt64 o.code (i + 1) = getInt64 p.code (j + 1) := by
                simp only [getInt64, Words.get, e 1 (by omega) (by omega), Nat.add_assoc, Nat.reduceAdd,
                  e 2 (by omega) (by omega)]
              rw [hx, hy] at this
              cases this
              simpa [Match.synchronous] using ht
          · have hl : ∀ k, 1 ≤ k → k ≤ count w → ∃ a b, o.code[i + k]? = some a ∧ p.code[j + k]? = some b ∧
                ∀ m, Map h oc τ n m → Ends h oc t ti τ n (.word o a p b) m := by
              intro k k1 k2
              have ha := List.getElem?_eq_getElem (show i + k < o.code.length by omega)
              have hb := List.getElem?_eq_getElem (show j + k < p.code.length by omega)
              exact ⟨_, _, ha, hb, fun m hm => leaf_ends ht hti (h5 k _ k1 k2 ha) (p5 k _ k1 k2 hb) hm⟩
            obtain ⟨b, m', hev, ho⟩ := loop hl (count w - 1) 1 m (by omega) (Nat.le_refl _) hm
            refine ⟨b, m', str_members h1 hv h0 hc (fun hw => ?_) hev, ho.mono (fun hf => ?_) fun ms _ hi => ?_⟩
            · subst hw
              have b1 := List.getElem?_eq_getElem (show j + 1 < p.code.length by omega)
              have b2 := List.getElem?_eq_getElem (show j + 2 < p.code.length by omega)
              exact boundTi_none b1 b2 fun h => (p5 1 _ (by omega) (by omega) b1).2.1 h.1
            · refine Fits.data h1 hv h2 hc fun k k1 k2 => ?_
              obtain ⟨a, b, ha, hb, -⟩ := hl k k1 k2
              exact ⟨a, b, ha, hb, fits_leaf (p5 k b k1 k2 hb) (hf k a b k1 k2 ha hb)⟩
            · intro k a b k1 k2 ha hb
              cases hi with
              | data g1 g2 g3 g4 =>
                rw [h1] at g1; cases g1
                have := g4 k k1 k2
                rw [ha, hb] at this
                cases this
                exact Is.atom (h5 k a k1 k2 ha)
              | str g1 _ g3 => rw [h1] at g1; cases g1; rw [h2] at g3; cases g3
      · exact str_differ h1 hv hne hm
    unfold Pattern at hp
    cases hp with
    | data p1 p2 p3 p4 p5 => exact go _ p1 fun h => by subst h; exact ⟨p3, p5⟩
    | str p1 p2 => exact go _ p1 fun h => by subst h; rw [h2] at p2; cases p2
  | @str o i w h1 h2 h3 h4 h5 h6 ih =>
    intro p j hp hsafe m hm
    have go : ∀ v, p.code[j]? = some v → (v = w → j + count w < p.code.length ∧ ¬ VarTi ti p j ∧
        ∀ k a, 1 ≤ k → k ≤ count w → p.code[j + k]? = some a → Pattern h oc ti n (.word p a)) →
        Ends h oc t ti τ n (.str o i p j) m := by
      intro v hv hok
      by_cases hne : w = v
      · subst hne
        obtain ⟨p3, p4, p5⟩ := hok rfl
        by_cases h0 : count w = 0
        · refine ⟨true, m, hE.succ.mono fun g hg => ?_, Outcome.same hm (fun _ => ?_) fun _ _ _ => rfl⟩
          · obtain ⟨g', rfl, -⟩ := hg
            simp only [run, matchStructure, h1, hv, ne_eq, not_true_eq_false, if_false, if_pos h0]
          · exact Fits.str h1 hv h2 (fun k k1 k2 => by omega) fun k _ _ k1 k2 => by omega
        · have hc : getDescriptor w ≠ 0xC7 := by
            intro h
            simp [raw, h] at h2
          have hl : ∀ k, 1 ≤ k → k ≤ count w → ∃ a b, o.code[i + k]? = some a ∧ p.code[j + k]? = some b ∧
              ∀ m, Map h oc τ n m → Ends h oc t ti τ n (.word o a p b) m := by
            intro k k1 k2
            have ha := List.getElem?_eq_getElem (show i + k < o.code.length by omega)
            have hb := List.getElem?_eq_getElem (show j + k < p.code.length by omega)
            refine ⟨_, _, ha, hb, fun m hm => ?_⟩
            obtain ⟨i1, i2⟩ := ih k _ k1 k2 ha
            exact word_ends ht hti (h6 k _ k1 k2 ha) (p5 k _ k1 k2 hb) i1 i2
              (fun o' w' p' v' hin => hsafe o' w' p' v' (Inside.str h1 hv h2 k1 k2 ha hb hin)) hm
          obtain ⟨b, m', hev, ho⟩ := loop hl (count w - 1) 1 m (by omega) (Nat.le_refl _) hm
          refine ⟨b, m', str_members h1 hv h0 hc (fun hw => ?_) hev, ho.mono (fun hf => ?_) fun ms _ hi => ?_⟩
          · subst hw
            have b1 := List.getElem?_eq_getElem (show j + 1 < p.code.length by omega)
            have b2 := List.getElem?_eq_getElem (show j + 2 < p.code.length by omega)
            refine boundTi_none b1 b2 fun h => p4 ⟨hv, fun k k1 k2 => ?_⟩
            rcases (by omega : k = 1 ∨ k = 2) with rfl | rfl
            · exact ⟨_, b1, h.1⟩
            · exact ⟨_, b2, h.2⟩
          · refine Fits.str h1 hv h2 (fun k k1 k2 => ?_) fun k a b k1 k2 ha hb => hf k a b k1 k2 ha hb
            obtain ⟨a, b, ha, hb, -⟩ := hl k k1 k2
            exact ⟨a, b, ha, hb⟩
          · cases hi with
            | data g1 g2 g3 => rw [h1] at g1; cases g1; rw [h2] at g3; cases g3
            | str g1 g2 g3 g4 => rw [h1] at g1; cases g1; exact g4
      · exact str_differ h1 hv hne hm
    unfold Pattern at hp
    cases hp with
    | data p1 p2 => exact go _ p1 fun h => by subst h; rw [h2] at p2; cases p2
    | str p1 p2 p3 p4 p5 p6 => exact go _ p1 fun h => by subst h; exact ⟨p4, p5, p6⟩
  | @named o a w h1 h2 h3 =>
    intro b hp hsafe m hm
    obtain ⟨p, v, hb, hv⟩ : ∃ p v, h b = some p ∧ p.code[0]? = some v := by
      unfold Pattern at hp
      cases hp with
      | named p1 p2 => exact ⟨_, _, p1, p2⟩
      | obj p1 p2 => exact ⟨_, _, p1, p2⟩
    by_cases hne : w = v
    · subst hne
      refine ⟨a == b, m, hE.succ.mono fun g hg => ?_, Outcome.same hm (fun hab => ?_) fun ms _ hi => ?_⟩
      · obtain ⟨g', rfl, -⟩ := hg
        simp only [run, matchObject, h1, hb, h2, hv, ne_eq, not_true_eq_false, if_false,
          Verif.Match.named_iff.2 h3, if_true]
      · obtain rfl : a = b := by simpa using hab
        exact Fits.named h1 h2 h3
      · cases hi with
        | named => simp
        | obj g1 _ g3 _ g5 => rw [h1] at g1; cases g1; rw [h2] at g3; cases g3; exact absurd h3 g5
    · exact obj_differ h1 hb h2 hv hne hm
  | @obj o a w h1 h2 h3 h4 h5 h6 ih =>
    intro b hp hsafe m hm
    have go : ∀ p v, h b = some p → p.code[0]? = some v → (v = w → count w < p.code.length ∧
        ∀ k a, 1 ≤ k → k ≤ count w → p.code[k]? = some a → Pattern h oc ti n (.word p a)) →
        Ends h oc t ti τ n (.obj a b) m := by
      intro p v hb hv hok
      by_cases hne : w = v
      · subst hne
        obtain ⟨p3, p5⟩ := hok rfl
        have hl : ∀ k, 1 ≤ k → k ≤ count w → ∃ a b, o.code[0 + k]? = some a ∧ p.code[0 + k]? = some b ∧
            ∀ m, Map h oc τ n m → Ends h oc t ti τ n (.word o a p b) m := by
          intro k k1 k2
          rw [Nat.zero_add]
          have ha := List.getElem?_eq_getElem (show k < o.code.length by omega)
          have hb' := List.getElem?_eq_getElem (show k < p.code.length by omega)
          refine ⟨_, _, ha, hb', fun m hm => ?_⟩
          obtain ⟨i1, i2⟩ := ih k _ k1 k2 ha
          exact word_ends ht hti (h6 k _ k1 k2 ha) (p5 k _ k1 k2 hb') i1 i2
            (fun o' w' p' v' hin => hsafe o' w' p' v' (Inside.obj h1 hb h2 hv h3 k1 k2 ha hb' hin)) hm
        obtain ⟨r, m', hev, ho⟩ := loop hl (count w - 1) 1 m (by omega) (Nat.le_refl _) hm
        simp only [Nat.zero_add] at hl ho hev
        refine ⟨r, m', hev.succ.mono fun g hg => ?_, ho.mono (fun hf => ?_) fun ms _ hi => ?_⟩
        · obtain ⟨g', rfl, hg'⟩ := hg
          have hn : Match.byIdentity oc w = false := by
            cases hb : Match.byIdentity oc w
            · rfl
            · exact absurd (Verif.Match.named_iff.1 hb) h3
          simp only [run, matchObject, h1, hb, h2, hv, ne_eq, not_true_eq_false, if_false, hn, Bool.false_eq_true, hg']
        · refine Fits.obj h1 hb h2 hv h3 (fun k k1 k2 => ?_) fun k a b k1 k2 ha hb => hf k a b k1 k2 ha hb
          obtain ⟨a, b, ha, hb, -⟩ := hl k k1 k2
          exact ⟨a, b, ha, hb⟩
        · cases hi with
          | named g1 g2 g3 => rw [h1] at g1; cases g1; rw [h2] at g2; cases g2; exact absurd g3 h3
          | obj g1 g2 g3 g4 g5 g6 =>
            rw [h1] at g1; cases g1; rw [hb] at g2; cases g2
            rw [h2] at g3; cases g3
            exact g6
      · exact obj_differ h1 hb h2 hv hne hm
    unfold Pattern at hp
    cases hp with
    | named p1 p2 p3 => exact go _ _ p1 p2 fun h => by subst h; exact absurd p3 h3
    | obj p1 p2 p3 p4 p5 p6 => exact go _ _ p1 p2 fun h => by subst h; exact ⟨p5, p6⟩

end Verif.Unify
