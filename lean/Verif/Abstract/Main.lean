import Verif.Abstract.Walk
/-! Abstracting objects. -/
namespace Verif.Abstract
open Verif.Atom Verif.Words Verif.Values
open Verif.Instance (Ev)
open Verif.BindMap (BMap Slot)
open Verif.Match (Obj Heap Opc Tol isWild isVar isIPtr isRPtr Named SameAtom)
open Verif.Unify (Leaf Place Ok Ground Pair Fits GoodSlot Good)

/-- Members left open. -/
def opens : List Nat → Part → Part
  | [], P => P
  | k :: ks, P => opens ks (P.put k (wildcard 0))

theorem opens_same : ∀ ks P, (opens ks P).heap = P.heap ∧ (opens ks P).map = P.map ∧
    (opens ks P).obj.refs = P.obj.refs ∧ (opens ks P).ext = P.ext ∧
    P.obj.code.length ≤ (opens ks P).obj.code.length := by
  intro ks
  induction ks with
  | nil => intro P; exact ⟨rfl, rfl, rfl, rfl, Nat.le_refl _⟩
  | cons k ks ih =>
    intro P
    obtain ⟨h1, h2, h3, h4, h5⟩ := ih (P.put k (wildcard 0))
    exact ⟨h1, h2, h3, h4, Nat.le_trans (by simp only [Part.put, put_length]; omega) h5⟩

theorem opens_keep : ∀ ks P q, q < P.obj.code.length → q ∉ ks → (opens ks P).obj.code[q]? = P.obj.code[q]? := by
  intro ks
  induction ks with
  | nil => intro P q _ _; rfl
  | cons k ks ih =>
    intro P q hq hn
    rw [List.mem_cons, not_or] at hn
    have := ih (P.put k (wildcard 0)) q (by simp only [Part.put, put_length]; omega) hn.2
    simp only [opens]
    rw [this]
    exact put_keep _ hn.1 hq

theorem opens_open : ∀ ks P q, q ∈ ks → (opens ks P).obj.code[q]? = some (wildcard 0) := by
  intro ks
  induction ks with
  | nil => intro P q h; cases h
  | cons k ks ih =>
    intro P q h
    simp only [opens]
    by_cases hq : q ∈ ks
    · exact ih _ q hq
    · obtain rfl : q = k := (List.mem_cons.1 h).resolve_right hq
      rw [opens_keep ks _ q (by simp only [Part.put, put_length]; omega) hq]
      exact put_get_self _ _ _

/-- Abstracting object `a` succeeds. -/
def Made (h0 : List Obj) (K : Kinds) (t : Tol) (m0 : BMap) (g a : Nat) : Prop :=
  ∀ H m first, Inv h0 K t m0 H m → Start m first →
    ∃ H' m' b, absObject K t g H m a false first = some (H', m', b) ∧ Inv h0 K t m0 H' m' ∧ H <+: H' ∧
      m.slots <+: m'.slots ∧
      ∀ (H'' : List Obj) (M : BMap), H' <+: H'' → m'.slots <+: M.slots → Small h0.length H'' →
        M.slots.length ≤ 4096 → Abs (heapOf H'') K t (SameAtom t) M (.obj a b)

theorem made_spec {h0 : List Obj} {K : Kinds} {t : Tol} {m0 : BMap} {g a : Nat} {o : Obj} {w : Word} {rs : List Role}
    (ho : h0[a]? = some o) (hw : o.code[0]? = some w) (hr : roles K w = some rs) (hc : count w = rs.length)
    (hl : count w < o.code.length) (hsteps : ∀ k, 1 ≤ k → k ≤ count w → Step h0 K t m0 g o k)
    (P0 : Part) (hi : Inv h0 K t m0 P0.heap P0.map) (hP0 : P0.obj.code[0]? = some w) (he : P0.ext = rs.length + 1)
    (h4 : rs.length < 4096)
    (l : List (Nat × Int)) (ks : List Nat) (hll : l.Pairwise fun x y => x.1 ≠ y.1)
    (hst : ∀ x, x ∈ l → Start P0.map x.2)
    (hlift : ∀ k, rs[k]? = some .lift → ∃ x, x ∈ l ∧ x.1 = k + 1)
    (hlift' : ∀ x, x ∈ l → 1 ≤ x.1 ∧ x.1 ≤ rs.length ∧ x.1 ∉ ks)
    (hfree : ∀ k, rs[k]? = some .free → k + 1 ∈ ks)
    (hks : ∀ k, k ∈ ks → 1 ≤ k ∧ k ≤ rs.length)
    (hkeep : ∀ k, rs[k]? = some .keep → k + 1 ∉ ks ∧ (∀ x, x ∈ l → x.1 ≠ k + 1) ∧
      ∃ d, o.code[k + 1]? = some d ∧ P0.obj.code[k + 1]? = some d) :
    ∃ P', absRow (absMember K t g o) l P0 = some P' ∧ Inv h0 K t m0 P'.heap P'.map ∧ P0.heap <+: P'.heap ∧
      P0.map.slots <+: P'.map.slots ∧
      ∀ (H'' : List Obj) (M : BMap), (P'.heap ++ [(opens ks P').obj]) <+: H'' → P'.map.slots <+: M.slots →
        Small h0.length H'' → M.slots.length ≤ 4096 →
        Abs (heapOf H'') K t (SameAtom t) M (.obj a P'.heap.length) := by
  obtain ⟨P', h1, hi', hg, hh⟩ := row_spec (l.map fun x => (x.1, x.1, x.2)) P0
    (fun x hx => by
      obtain ⟨y, hy, rfl⟩ := List.mem_map.1 hx
      exact hsteps _ (hlift' y hy).1 (by rw [hc]; exact (hlift' y hy).2.1)) hi
    (fun x hx => by
      obtain ⟨y, hy, rfl⟩ := List.mem_map.1 hx
      exact ⟨hst y hy, by have := (hlift' y hy).2.1; simp only; omega⟩)
    (by rw [List.pairwise_map]; exact hll)
  refine ⟨P', by rw [absRow_row]; exact h1, hi', hg.heap, hg.slots, fun H'' M g1 g2 g3 g4 => ?_⟩
  obtain ⟨e1, e2, e3, e4, e5⟩ := opens_same ks P'
  have hO : H''[P'.heap.length]? = some (opens ks P').obj := get_prefix g1 (by simp)
  obtain ⟨s1, s2⟩ := g3 _ _ hi'.pre.length_le hO
  have hroom := hg.room
  -- the words written are in the object
  have hheld : ∀ x, x ∈ l → ∀ a, o.code[x.1]? = some a → ∃ v, (opens ks P').obj.code[x.1]? = some v ∧
      Abs (heapOf H'') K t (SameAtom t) M (.word o a (opens ks P').obj v) := by
    intro x hx a ha
    refine hh (x.1, x.1, x.2) (List.mem_map.2 ⟨x, hx, rfl⟩) H'' M _ a
      ((List.prefix_append _ _).trans g1) g2 (by rw [e3]; exact List.prefix_rfl) (fun q hq => ?_) g3 (by omega) s2
      g4 ha
    have hx' := hlift' x hx
    rcases hq with rfl | ⟨ha, hb⟩
    · exact opens_keep ks P' _ (hg.wrote _ ⟨_, List.mem_map.2 ⟨x, hx, rfl⟩, rfl⟩) hx'.2.2
    · refine opens_keep ks P' q (by omega) fun hq => ?_
      have := hks q hq
      omega
  have hnot0 : ¬ ∃ x, x ∈ l.map (fun x => (x.1, x.1, x.2)) ∧ 0 = x.2.1 := by
    rintro ⟨x, hx, e⟩
    obtain ⟨y, hy, rfl⟩ := List.mem_map.1 hx
    have := (hlift' y hy).1
    simp only at e
    omega
  have hlen0 : 0 < P0.obj.code.length := (List.getElem?_eq_some_iff.1 hP0).1
  have hw' : (opens ks P').obj.code[0]? = some w := by
    rw [opens_keep ks P' 0 (Nat.lt_of_lt_of_le hlen0 hg.len) (fun h => by have := (hks 0 h).1; omega),
      hg.keep 0 hlen0 hnot0 (by omega)]
    exact hP0
  refine Abs.made (rs := rs) (get_prefix (hi'.pre.trans ((List.prefix_append _ _).trans g1)) ho) hO hw hw' hr
    (fun k r hk => ?_) fun k x y hk hx hy => ?_
  · have hkl := (List.getElem?_eq_some_iff.1 hk).1
    have hx := List.getElem?_eq_getElem (show k + 1 < o.code.length by omega)
    cases r with
    | lift =>
      obtain ⟨x, hxl, e⟩ := hlift k hk
      obtain ⟨v, hv, -⟩ := hheld x hxl _ (by rw [e]; exact hx)
      exact ⟨_, v, hx, by rw [← e]; exact hv, (fun h => by cases h), (fun h => by cases h)⟩
    | free =>
      exact ⟨_, _, hx, opens_open ks P' _ (hfree k hk), (fun h => by cases h), fun _ => by decide⟩
    | keep =>
      obtain ⟨n1, n2, d, hd, hd'⟩ := hkeep k hk
      have hlt := (List.getElem?_eq_some_iff.1 hd').1
      refine ⟨d, d, hd, ?_, fun _ => rfl, fun h => by cases h⟩
      rw [opens_keep ks P' _ (Nat.lt_of_lt_of_le hlt hg.len) n1, hg.keep _ hlt ?_ (by omega)]
      · exact hd'
      · rintro ⟨x, hx, e⟩
        obtain ⟨y, hy, rfl⟩ := List.mem_map.1 hx
        exact n2 y hy e.symm
  · obtain ⟨z, hzl, e⟩ := hlift k hk
    obtain ⟨v, hv, hA⟩ := hheld z hzl x (by rw [e]; exact hx)
    rw [e, hy] at hv
    cases hv
    exact hA

theorem absFact_row {rec : Part → Nat → Nat → Int → Option Part} {H : List Obj} {m : BMap} {w : Word} {first : Int} :
    absFact rec H m w false first = (absRow rec [(1, first), (2, first), (3, first)] (fresh H
      (if m.fwdAfter = -1 then { m with first := BitVec.ofNat 16 m.slots.length } else m) w 6)).map endFact := by
  simp only [absFact, Bool.false_eq_true, and_false, if_false, absRow]
  cases h1 : rec (fresh H (if m.fwdAfter = -1 then { m with first := BitVec.ofNat 16 m.slots.length } else m) w 6)
      1 1 first with
  | none => rfl
  | some P =>
    simp only [Option.bind_some]

theorem endFact_spec (P : Part) : (endFact P).done.1 = P.heap ++ [(opens [4, 5] P).obj] ∧
    (endFact P).done.2.1.slots = P.map.slots ∧ (endFact P).done.2.2 = P.heap.length := by
  unfold endFact
  by_cases h : ((P.put 4 (wildcard 0)).put 5 (wildcard 0)).map.fwdAfter = -1
  · simp only [if_pos h]; exact ⟨rfl, rfl, rfl⟩
  · simp only [if_neg h]; exact ⟨rfl, rfl, rfl⟩

theorem made_fact {h0 : List Obj} {K : Kinds} {t : Tol} {m0 : BMap} {g a : Nat} {o : Obj} {w : Word}
    (ho : h0[a]? = some o) (hw : o.code[0]? = some w) (hr : roles K w = some [.lift, .lift, .lift, .free, .free])
    (hc : count w = 5) (hl : count w < o.code.length) (hsteps : ∀ k, 1 ≤ k → k ≤ count w → Step h0 K t m0 g o k)
    (H : List Obj) (m : BMap) (first : Int) (hi : Inv h0 K t m0 H m) (hst : Start m first) :
    ∃ H' m' b, (absFact (absMember K t g o) H m w false first).map Part.done = some (H', m', b) ∧
      Inv h0 K t m0 H' m' ∧ H <+: H' ∧ m.slots <+: m'.slots ∧
      ∀ (H'' : List Obj) (M : BMap), H' <+: H'' → m'.slots <+: M.slots → Small h0.length H'' →
        M.slots.length ≤ 4096 → Abs (heapOf H'') K t (SameAtom t) M (.obj a b) := by
  have hsl : (if m.fwdAfter = -1 then { m with first := BitVec.ofNat 16 m.slots.length } else m).slots = m.slots := by
    split <;> rfl
  generalize hm' : (if m.fwdAfter = -1 then { m with first := BitVec.ofNat 16 m.slots.length } else m) = m1 at hsl
  have hst' : Start m1 first := by unfold Start; rw [hsl]; exact hst
  obtain ⟨P', h1, h2, h3, h4, h5⟩ := made_spec ho hw hr hc hl hsteps (fresh H m1 w 6) (hi.congr hsl) rfl rfl
    (by decide) [(1, first), (2, first), (3, first)] [4, 5] (by simp)
    (fun x hx => by
      simp only [List.mem_cons, List.not_mem_nil, or_false] at hx
      rcases hx with rfl | rfl | rfl <;> exact hst')
    (fun k hk => by
      have := (List.getElem?_eq_some_iff.1 hk).1
      rcases k with _ | _ | _ | _ | _ | k
      · exact ⟨(1, first), by simp, rfl⟩
      · exact ⟨(2, first), by simp, rfl⟩
      · exact ⟨(3, first), by simp, rfl⟩
      all_goals cases hk)
    (fun x hx => by
      simp only [List.mem_cons, List.not_mem_nil, or_false] at hx
      rcases hx with rfl | rfl | rfl <;> simp)
    (fun k hk => by
      rcases k with _ | _ | _ | _ | _ | k
      all_goals first | (cases hk; done) | simp)
    (fun k hk => by
      simp only [List.mem_cons, List.not_mem_nil, or_false] at hk
      rcases hk with rfl | rfl <;> simp)
    (fun k hk => by
      rcases k with _ | _ | _ | _ | _ | k
      all_goals cases hk)
  obtain ⟨d1, d2, d3⟩ := endFact_spec P'
  refine ⟨(endFact P').done.1, (endFact P').done.2.1, (endFact P').done.2.2, by rw [absFact_row, hm', h1]; rfl,
    ?_, ?_, ?_, fun H'' M g1 g2 g3 g4 => ?_⟩
  · rw [d1]
    exact (h2.congr d2).heap (List.prefix_append _ _)
  · rw [d1]
    exact h3.trans (List.prefix_append _ _)
  · rw [d2, ← hsl]
    exact h4
  · rw [d1] at g1
    rw [d2] at g2
    rw [d3]
    exact h5 H'' M g1 g2 g3 g4

/-- All objects whose members can be abstracted. -/
theorem made_object {h0 : List Obj} {K : Kinds} {t : Tol} {m0 : BMap} {g a : Nat} {o : Obj} {w : Word}
    (hs : Shaped (heapOf h0) K) (ho : h0[a]? = some o) (hw : o.code[0]? = some w) (hl : count w < o.code.length)
    (hsteps : ∀ k, 1 ≤ k → k ≤ count w → Step h0 K t m0 g o k) : Made h0 K t m0 (g + 1) a := by
  intro H m first hi hst
  have ho' := get_prefix hi.pre ho
  simp only [absObject, ho', hw]
  have hcount := fun rs hr => hs.count a o w rs ho hw hr
  by_cases c1 : asOpcode w = K.oc.fact
  · rw [if_pos c1]
    have hr : roles K w = some [.lift, .lift, .lift, .free, .free] := by rw [roles, if_pos (Or.inl c1)]
    have := hs.fact a o w ho hw (Or.inl c1)
    rw [c1] at this
    rw [← this]
    exact made_fact ho hw hr (hcount _ hr) hl hsteps H m first hi hst
  rw [if_neg c1]
  by_cases c2 : asOpcode w = K.oc.antiFact
  · rw [if_pos c2]
    have hr : roles K w = some [.lift, .lift, .lift, .free, .free] := by rw [roles, if_pos (Or.inr c2)]
    have := hs.fact a o w ho hw (Or.inr c2)
    rw [c2] at this
    rw [← this]
    exact made_fact ho hw hr (hcount _ hr) hl hsteps H m first hi hst
  rw [if_neg c2]
  have n1 : ¬ (asOpcode w = K.oc.fact ∨ asOpcode w = K.oc.antiFact) := by rintro (h | h) <;> contradiction
  have hz : Start m 0 := Or.inl (by decide)
  by_cases c3 : asOpcode w = K.cmd
  · rw [if_pos c3]
    have hr : roles K w = some [.keep, .lift, .free] := by rw [roles, if_neg n1, if_pos c3]
    have hc := hcount _ hr
    obtain ⟨d, hd⟩ : ∃ d, o.code[1]? = some d :=
      ⟨_, List.getElem?_eq_getElem (show 1 < o.code.length by simp at hc; omega)⟩
    rw [hd]
    obtain ⟨P', h1, h2, h3, h4, h5⟩ := made_spec ho hw hr hc hl hsteps
      ((fresh H m w 4).put 1 d) hi rfl rfl (by decide) [(2, 0)] [3] (by decide)
      (fun x hx => by simp only [List.mem_cons, List.not_mem_nil, or_false] at hx; subst hx; exact hz)
      (fun k hk => by
        rcases k with _ | _ | _ | k
        · cases hk
        · exact ⟨(2, 0), by simp, rfl⟩
        all_goals cases hk)
      (fun x hx => by simp only [List.mem_cons, List.not_mem_nil, or_false] at hx; subst hx; simp)
      (fun k hk => by
        rcases k with _ | _ | _ | k
        all_goals first | (cases hk; done) | simp)
      (fun k hk => by
        simp only [List.mem_cons, List.not_mem_nil, or_false] at hk
        subst hk; simp)
      (fun k hk => by
        rcases k with _ | _ | _ | k
        · exact ⟨by simp, by simp, _, hd, rfl⟩
        all_goals cases hk)
    refine ⟨_, _, _, by simp only [h1, Option.map_some]; rfl, h2.heap (List.prefix_append _ _),
      h3.trans (List.prefix_append _ _), h4, fun H'' M g1 g2 g3 g4 => h5 H'' M g1 g2 g3 g4⟩
  rw [if_neg c3]
  by_cases c4 : asOpcode w = K.oc.mkVal
  · rw [if_pos c4]
    have hr : roles K w = some [.lift, .lift, .lift, .free] := by rw [roles, if_neg n1, if_neg c3, if_pos c4]
    have hc := hcount _ hr
    obtain ⟨P', h1, h2, h3, h4, h5⟩ := made_spec ho hw hr hc hl hsteps
      (fresh H m w 5) hi rfl rfl (by decide) [(1, 0), (2, 0), (3, 0)] [4] (by decide)
      (fun x hx => by
        simp only [List.mem_cons, List.not_mem_nil, or_false] at hx
        rcases hx with rfl | rfl | rfl <;> exact hz)
      (fun k hk => by
        rcases k with _ | _ | _ | _ | k
        · exact ⟨(1, 0), by simp, rfl⟩
        · exact ⟨(2, 0), by simp, rfl⟩
        · exact ⟨(3, 0), by simp, rfl⟩
        all_goals cases hk)
      (fun x hx => by
        simp only [List.mem_cons, List.not_mem_nil, or_false] at hx
        rcases hx with rfl | rfl | rfl <;> simp)
      (fun k hk => by
        rcases k with _ | _ | _ | _ | k
        all_goals first | (cases hk; done) | simp)
      (fun k hk => by
        simp only [List.mem_cons, List.not_mem_nil, or_false] at hk
        subst hk; simp)
      (fun k hk => by
        rcases k with _ | _ | _ | _ | k
        all_goals cases hk)
    refine ⟨_, _, _, by simp only [h1, Option.map_some]; rfl, h2.heap (List.prefix_append _ _),
      h3.trans (List.prefix_append _ _), h4, fun H'' M g1 g2 g3 g4 => h5 H'' M g1 g2 g3 g4⟩
  rw [if_neg c4]
  by_cases c5 : asOpcode w = K.oc.imdl ∨ asOpcode w = K.oc.icst
  · rw [if_pos c5]
    have hr : roles K w = some [.lift, .lift, .lift, .free, .free] := by
      rw [roles, if_neg n1, if_neg c3, if_neg c4, if_pos c5]
    have hc := hcount _ hr
    obtain ⟨P', h1, h2, h3, h4, h5⟩ := made_spec ho hw hr hc hl hsteps
      (fresh H m w 6) hi rfl rfl (by decide) [(1, 0), (2, 0), (3, -1)] [4, 5] (by decide)
      (fun x hx => by
        simp only [List.mem_cons, List.not_mem_nil, or_false] at hx
        rcases hx with rfl | rfl | rfl
        · exact hz
        · exact hz
        · exact Or.inl (by decide))
      (fun k hk => by
        rcases k with _ | _ | _ | _ | _ | k
        · exact ⟨(1, 0), by simp, rfl⟩
        · exact ⟨(2, 0), by simp, rfl⟩
        · exact ⟨(3, -1), by simp, rfl⟩
        all_goals cases hk)
      (fun x hx => by
        simp only [List.mem_cons, List.not_mem_nil, or_false] at hx
        rcases hx with rfl | rfl | rfl <;> simp)
      (fun k hk => by
        rcases k with _ | _ | _ | _ | _ | k
        all_goals first | (cases hk; done) | simp)
      (fun k hk => by
        simp only [List.mem_cons, List.not_mem_nil, or_false] at hk
        rcases hk with rfl | rfl <;> simp)
      (fun k hk => by
        rcases k with _ | _ | _ | _ | _ | k
        all_goals cases hk)
    refine ⟨_, _, _, by simp only [h1, Option.map_some]; rfl, h2.heap (List.prefix_append _ _),
      h3.trans (List.prefix_append _ _), h4, fun H'' M g1 g2 g3 g4 => h5 H'' M g1 g2 g3 g4⟩
  rw [if_neg c5]
  have hr : roles K w = none := by rw [roles, if_neg n1, if_neg c3, if_neg c4, if_neg c5]
  exact ⟨H, m, a, rfl, hi, List.prefix_rfl, List.prefix_rfl, fun H'' M g1 g2 g3 g4 =>
    Abs.kept (get_prefix (hi.pre.trans g1) ho) hw hr⟩

theorem made_named {h0 : List Obj} {K : Kinds} {t : Tol} {m0 : BMap} {g a : Nat} {o : Obj} {w : Word}
    (ho : h0[a]? = some o) (hw : o.code[0]? = some w) (hr : roles K w = none) : Made h0 K t m0 (g + 1) a := by
  intro H m first hi hst
  have ho' := get_prefix hi.pre ho
  simp only [absObject, ho', hw]
  have n1 : ¬ (asOpcode w = K.oc.fact ∨ asOpcode w = K.oc.antiFact) := fun h => by rw [roles, if_pos h] at hr; cases hr
  rw [roles, if_neg n1] at hr
  have c3 : ¬ asOpcode w = K.cmd := fun h => by rw [if_pos h] at hr; cases hr
  rw [if_neg c3] at hr
  have c4 : ¬ asOpcode w = K.oc.mkVal := fun h => by rw [if_pos h] at hr; cases hr
  rw [if_neg c4] at hr
  have c5 : ¬ (asOpcode w = K.oc.imdl ∨ asOpcode w = K.oc.icst) := fun h => by rw [if_pos h] at hr; cases hr
  rw [if_neg (fun h => n1 (Or.inl h)), if_neg (fun h => n1 (Or.inr h)), if_neg c3, if_neg c4, if_neg c5]
  exact ⟨H, m, a, rfl, hi, List.prefix_rfl, List.prefix_rfl, fun H'' M g1 g2 g3 g4 =>
    Abs.kept (get_prefix (hi.pre.trans g1) ho) hw (by rw [roles, if_neg n1, if_neg c3, if_neg c4, if_neg c5])⟩

/-! ## Members -/

theorem step_atom {h0 : List Obj} {K : Kinds} {t : Tol} {m0 : BMap} {g i : Nat} {o : Obj} {a : Word}
    (ha : o.code[i]? = some a) (hl : Leaf a) : Step h0 K t m0 (g + 1) o i := by
  intro P write first hi hst hw
  have n1 : ¬ getDescriptor a = 0x85 := fun e => hl.2.2.2 (Unify.rptr_iff.2 e)
  have n2 : ¬ getDescriptor a = 0x84 := fun e => hl.2.2.1 (Unify.iptr_iff.2 e)
  simp only [absMember, ha]
  rw [if_neg n1, if_neg n2]
  obtain ⟨m', v, h1, hf, hd⟩ := atomVariable_spec (t := t) (full_of_good hi.good) a
  rw [h1]
  refine ⟨_, rfl, hi.found hf hl (fun c w h => by cases h) hd,
    grown_put (P := P) List.prefix_rfl hf.slots List.prefix_rfl, ?_⟩
  intro H M O b g1 g2 g3 g4 g5 g6 g7 g8 g9
  rw [ha] at g9
  cases g9
  obtain ⟨j, rfl, y, hy, x, rfl, hs⟩ := hf.var
  have hy' := get_prefix g2 hy
  refine ⟨vl j, by rw [g4 write (Or.inl rfl)]; exact put_get_self _ _ _, Abs.atom hl (vl_var j) ?_ hs⟩
  rw [vl_ix (by have := (List.getElem?_eq_some_iff.1 hy').1; omega)]
  exact hy'

theorem rp_ptr (n : Nat) : isRPtr (rp n) = true := Unify.rptr_iff.2 (Instance.rp_desc n)

theorem step_ref {h0 : List Obj} {K : Kinds} {t : Tol} {m0 : BMap} {g i r : Nat} {o : Obj} {a : Word}
    (ha : o.code[i]? = some a) (hp : isRPtr a = true) (hr : o.refs[(asIndex a).toNat]? = some r)
    (hok : Source (heapOf h0) K (.obj r)) (hmade : Made h0 K t m0 g r) : Step h0 K t m0 (g + 1) o i := by
  intro P write first hi hst hw
  have hdesc : ∃ x d, h0[r]? = some x ∧ x.code[0]? = some d := by
    unfold Source at hok
    cases hok with
    | named h1 h2 h3 => exact ⟨_, _, h1, h2⟩
    | obj h1 h2 => exact ⟨_, _, h1, h2⟩
  obtain ⟨x, d, hx, hd⟩ := hdesc
  have hx' := get_prefix hi.pre hx
  simp only [absMember, ha]
  rw [if_pos (Unify.rptr_iff.1 hp)]
  simp only [ix, hr, hx', Option.bind_some, hd]
  by_cases c1 : asOpcode d = K.oc.ont
  · rw [if_pos c1]
    refine ⟨_, rfl, hi, grown_put (P := P) List.prefix_rfl List.prefix_rfl (List.prefix_append _ _), ?_⟩
    intro H M O b g1 g2 g3 g4 g5 g6 g7 g8 g9
    rw [ha] at g9
    cases g9
    have hrf := get_prefix g3 (show (P.obj.refs ++ [r])[P.obj.refs.length]? = some r by simp)
    refine ⟨rp P.obj.refs.length, by rw [g4 write (Or.inl rfl)]; exact put_get_self _ _ _,
      Abs.ont hp hr (get_prefix g1 hx') hd c1 (rp_ptr _) ?_⟩
    rw [rp, Instance.rp_ix _ (by have := (List.getElem?_eq_some_iff.1 hrf).1; omega)]
    exact hrf
  rw [if_neg c1]
  by_cases c2 : asOpcode d = K.oc.ent
  · rw [if_pos c2]
    obtain ⟨m', v, h1, hf, hdist⟩ := objectVariable_spec (t := t) (full_of_good hi.good) r
    rw [h1]
    refine ⟨_, rfl, hi.found hf (Ok.named (h := heapOf h0) hx hd (Or.inl c2)) (fun c w h => by cases h) hdist,
      grown_put (P := P) List.prefix_rfl hf.slots List.prefix_rfl, ?_⟩
    intro H M O b g1 g2 g3 g4 g5 g6 g7 g8 g9
    rw [ha] at g9
    cases g9
    obtain ⟨j, rfl, y, hy, rfl⟩ := hf.var
    have hy' := get_prefix g2 hy
    refine ⟨vl j, by rw [g4 write (Or.inl rfl)]; exact put_get_self _ _ _,
      Abs.ent hp hr (get_prefix g1 hx') hd c2 (vl_var j) ?_⟩
    rw [vl_ix (by have := (List.getElem?_eq_some_iff.1 hy').1; omega)]
    exact hy'
  rw [if_neg c2]
  obtain ⟨H', m', b, h1, h2, h3, h4, h5⟩ := hmade P.heap P.map first hi hst
  rw [h1]
  refine ⟨_, rfl, h2, grown_put (P := P) h3 h4 (List.prefix_append _ _), ?_⟩
  intro H M O c g1 g2 g3 g4 g5 g6 g7 g8 g9
  rw [ha] at g9
  cases g9
  have hrf := get_prefix g3 (show (P.obj.refs ++ [b])[P.obj.refs.length]? = some b by simp)
  refine ⟨rp P.obj.refs.length, by rw [g4 write (Or.inl rfl)]; exact put_get_self _ _ _,
    Abs.ref hp hr (rp_ptr _) ?_ (h5 H M g1 g2 g5 g8)⟩
  rw [rp, Instance.rp_ix _ (by have := (List.getElem?_eq_some_iff.1 hrf).1; omega)]
  exact hrf

theorem step_value {h0 : List Obj} {K : Kinds} {t : Tol} (ht : 0 < t.time) {m0 : BMap} {g i : Nat} {o : Obj} {a w : Word}
    (ha : o.code[i]? = some a) (hp : isIPtr a = true) (hf : FlatAt o (asIndex a).toNat w) (hn : ¬ Apart K w) :
    Step h0 K t m0 (g + 1 + 1) o i := by
  intro P write first hi hst hw
  have hd := Unify.iptr_iff.1 hp
  have n1 : ¬ getDescriptor a = 0x85 := by rw [hd]; decide
  simp only [absMember, ha]
  rw [if_neg n1, if_pos hd]
  simp only [ix, hf.head]
  have key : ∀ first, Start P.map first → ∃ P', ((structVariable t (g + 1) P.map o.code (asIndex a).toNat first).map
      fun v => { P with map := v.1 }.put write v.2) = some P' ∧ Inv h0 K t m0 P'.heap P'.map ∧
      Grown P P' (· = write) ∧ Held h0.length K t P P' write o i := by
    intro first hst
    obtain ⟨m', v, h1, hfd, hdist⟩ := structVariable_spec ht hi.good hi.tight hf hst g
    rw [h1]
    refine ⟨_, rfl, hi.found hfd (good_words hf _) (fun c d hc hcd => ?_) hdist,
      grown_put (P := P) List.prefix_rfl hfd.slots List.prefix_rfl, ?_⟩
    · cases hc
      rw [words_get (by omega), Nat.add_zero, hf.head] at hcd
      cases hcd
      exact words_len (by have := hf.len; omega)
    · intro H M O b g1 g2 g3 g4 g5 g6 g7 g8 g9
      rw [ha] at g9
      cases g9
      obtain ⟨j, rfl, y, hy, c, rfl, hfit⟩ := hfd.var
      have hy' := get_prefix g2 hy
      refine ⟨vl j, by rw [g4 write (Or.inl rfl)]; exact put_get_self _ _ _,
        Abs.value hp hf.head hn (vl_var j) ?_ (hfit _ _ _)⟩
      rw [vl_ix (by have := (List.getElem?_eq_some_iff.1 hy').1; omega)]
      exact hy'
  by_cases hu : K.usr (asOpcode w) = true
  · rw [if_pos hu]
    exact key 0 (Or.inl (by decide))
  · rw [if_neg hu]
    have hna : ¬ (getDescriptor w = 0xC1 ∨ getDescriptor w = 0xC3) := fun h => hn ⟨by simpa using hu, h⟩
    rw [if_neg hna]
    exact key first hst

theorem step_sub {h0 : List Obj} {K : Kinds} {t : Tol} {m0 : BMap} {g i : Nat} {o : Obj} {a w : Word}
    (ha : o.code[i]? = some a) (hp : isIPtr a = true) (hw : o.code[(asIndex a).toNat]? = some w) (hn : Apart K w)
    (hl : (asIndex a).toNat + count w < o.code.length)
    (hsteps : ∀ k, 1 ≤ k → k ≤ count w → Step h0 K t m0 g o ((asIndex a).toNat + k)) :
    Step h0 K t m0 (g + 1) o i := by
  intro P write first hi hst hwr
  have hd := Unify.iptr_iff.1 hp
  have n1 : ¬ getDescriptor a = 0x85 := by rw [hd]; decide
  simp only [absMember, ha]
  rw [if_neg n1, if_pos hd]
  simp only [ix, hw]
  rw [if_neg (by rw [hn.1]; decide), if_pos hn.2, absMembers_row]
  generalize hP1 : ({ (P.put write (ip P.ext)).put P.ext w with ext := P.ext + (count w + 1) } : Part) = P1
  have e1 : P1.heap = P.heap := by rw [← hP1]; rfl
  have e2 : P1.map = P.map := by rw [← hP1]; rfl
  have e3 : P1.obj.refs = P.obj.refs := by rw [← hP1]; rfl
  have e4 : P1.ext = P.ext + (count w + 1) := by rw [← hP1]
  have e5 : P1.obj.code = put (put P.obj.code write (ip P.ext)) P.ext w := by rw [← hP1]; rfl
  have hlen1 : P1.obj.code.length = max (max P.obj.code.length (write + 1)) (P.ext + 1) := by
    rw [e5, put_length, put_length]
  obtain ⟨P', h1, h2, h3, h4⟩ := row_spec (span first (count w) ((asIndex a).toNat + 1) (P.ext + 1)) P1
    (fun x hx => by
      obtain ⟨j, hj, rfl⟩ := mem_span.1 hx
      have := hsteps (j + 1) (by omega) (by omega)
      rw [show (asIndex a).toNat + 1 + j = (asIndex a).toNat + (j + 1) by omega]
      exact this)
    (by rw [e1, e2]; exact hi)
    (fun x hx => by
      obtain ⟨j, hj, rfl⟩ := mem_span.1 hx
      exact ⟨by rw [e2]; exact hst, by simp only; omega⟩)
    (span_apart _ _ _)
  have hW : ∀ q, (∃ x, x ∈ span first (count w) ((asIndex a).toNat + 1) (P.ext + 1) ∧ q = x.2.1) →
      P.ext + 1 ≤ q ∧ q < P.ext + 1 + count w := by
    rintro q ⟨x, hx, rfl⟩
    obtain ⟨j, hj, rfl⟩ := mem_span.1 hx
    exact ⟨by simp only; omega, by simp only; omega⟩
  have hWm : ∀ j, j < count w → ((asIndex a).toNat + 1 + j, P.ext + 1 + j, first) ∈
      span first (count w) ((asIndex a).toNat + 1) (P.ext + 1) := fun j hj => mem_span.2 ⟨j, hj, rfl⟩
  have hlen := h3.len
  have hroom := h3.room
  have hext := h3.ext
  have hfull : P.ext + count w < P'.obj.code.length := by
    rcases Nat.eq_zero_or_pos (count w) with h | h
    · omega
    · have := h3.wrote (P.ext + 1 + (count w - 1)) ⟨_, hWm (count w - 1) (by omega), rfl⟩
      omega
  have kw : P'.obj.code[write]? = some (ip P.ext) := by
    rw [h3.keep write (by omega) (fun h => by have := hW write h; omega) (by omega), e5,
      put_keep _ (by omega) (by rw [put_length]; omega)]
    exact put_get_self _ _ _
  have ke : P'.obj.code[P.ext]? = some w := by
    rw [h3.keep P.ext (by omega) (fun h => by have := hW _ h; omega) (by omega), e5]
    exact put_get_self _ _ _
  refine ⟨P', h1, h2, ⟨by rw [← e1]; exact h3.heap, by rw [← e2]; exact h3.slots, by rw [← e3]; exact h3.refs,
    by omega, by omega, fun q hq => by subst hq; omega, by omega, fun q q1 q2 q3 => ?_⟩, ?_⟩
  · rw [h3.keep q (by omega) (fun h => by have := hW q h; omega) (by omega), e5,
      put_keep _ (by omega) (by rw [put_length]; omega), put_keep _ q2 q1]
  · intro H M O b g1 g2 g3 g4 g5 g6 g7 g8 g9
    rw [ha] at g9
    cases g9
    have hin : ∀ q, P.ext ≤ q → q < P'.ext → O.code[q]? = P'.obj.code[q]? := fun q q1 q2 => g4 q (Or.inr ⟨q1, q2⟩)
    have hmem : ∀ k x, 1 ≤ k → k ≤ count w → o.code[(asIndex a).toNat + k]? = some x →
        ∃ v, O.code[P.ext + k]? = some v ∧ Abs (heapOf H) K t (SameAtom t) M (.word o x O v) := by
      intro k x k1 k2 hx
      have hh := h4 _ (hWm (k - 1) (by omega)) H M O x g1 g2 g3 (fun q hq => hin q ?_ ?_) g5 g6 g7 g8
        (by simp only; rw [show (asIndex a).toNat + 1 + (k - 1) = (asIndex a).toNat + k by omega]; exact hx)
      · rw [show P.ext + 1 + (k - 1) = P.ext + k by omega] at hh
        exact hh
      · rcases hq with hq | hq
        · simp only at hq; omega
        · omega
      · rcases hq with hq | hq
        · simp only at hq; omega
        · omega
    refine ⟨ip P.ext, by rw [g4 write (Or.inl rfl)]; exact kw,
      Abs.sub hp hw hn (Unify.iptr_iff.2 (ip_ptr _)) ?_⟩
    rw [ix_ip _ (by omega)]
    have hraw : raw w = false := by
      rcases hn.2 with h | h <;> simp [raw, h]
    refine Abs.str hw (by rw [hin _ (Nat.le_refl _) (by omega)]; exact ke) hraw (fun k k1 k2 => ?_)
      fun k x y k1 k2 hx hy => ?_
    · have hx := List.getElem?_eq_getElem (show (asIndex a).toNat + k < o.code.length by omega)
      obtain ⟨v, hv, -⟩ := hmem k _ k1 k2 hx
      exact ⟨_, v, hx, hv⟩
    · obtain ⟨v, hv, hA⟩ := hmem k x k1 k2 hx
      rw [hy] at hv
      cases hv
      exact hA

theorem Ev.up {P Q : Nat → Prop} (h : Ev P) (hs : ∀ g, P g → Q (g + 1)) : Ev Q := by
  obtain ⟨f, hf⟩ := h
  refine ⟨f + 1, fun g hg => ?_⟩
  obtain ⟨g', rfl⟩ : ∃ g', g = g' + 1 := ⟨g - 1, by omega⟩
  exact hs g' (hf g' (by omega))

/-- Abstraction succeeds on all sources. -/
theorem all_made {h0 : List Obj} {K : Kinds} {t : Tol} (ht : 0 < t.time) (hs : Shaped (heapOf h0) K) {m0 : BMap}
    {X : Place} (hX : Source (heapOf h0) K X) :
    match X with
    | .word o a => ∀ i, o.code[i]? = some a → Ev fun g => Step h0 K t m0 g o i
    | .str o i => ∀ w, o.code[i]? = some w → Apart K w → i + count w < o.code.length ∧
        Ev fun g => ∀ k, 1 ≤ k → k ≤ count w → Step h0 K t m0 g o (i + k)
    | .obj a => Ev fun g => Made h0 K t m0 g a := by
  unfold Source at hX
  induction hX with
  | word h1 h2 h3 =>
    intro i hi
    exact Ev.up (Ev.of (P := fun _ => True) fun _ => trivial) fun g _ => step_atom hi h3
  | @sub o w h1 hok ih =>
    intro i hi
    have hd : ∃ d, o.code[(asIndex w).toNat]? = some d := by cases hok <;> exact ⟨_, by assumption⟩
    obtain ⟨d, hd⟩ := hd
    by_cases hA : Apart K d
    · obtain ⟨hl, hev⟩ := ih d hd hA
      exact Ev.up hev fun g hg => step_sub hi h1 hd hA hl hg
    · have hf : FlatAt o (asIndex w).toNat d := by
        cases hok with
        | data g1 g2 g3 g4 g5 =>
          obtain rfl := Option.some.inj (g1.symm.trans hd)
          exact ⟨hd, fun e => Unify.raw_ne g2 (Unify.iptr_iff.1 e), g3, g4, g5⟩
        | str g1 g2 g3 g4 g5 g6 =>
          obtain rfl := Option.some.inj (g1.symm.trans hd)
          exact ⟨hd, g3, g4, fun e => by simp [raw, e] at g2, fun k a k1 k2 ha => g5 _ hd hA _ k a hd k1 k2 ha⟩
      exact Ev.up (Ev.up (Ev.of (P := fun _ => True) fun _ => trivial) (Q := fun g => ∃ g', g = g' + 1)
        fun g _ => ⟨g, rfl⟩) fun g ⟨g', hg⟩ => by subst hg; exact step_value ht hi h1 hf hA
  | ref h1 h2 hok ih =>
    intro i hi
    exact Ev.up ih fun g hg => step_ref hi h1 h2 hok hg
  | @data o i w h1 h2 h3 h4 h5 =>
    intro d hd hA
    obtain rfl := Option.some.inj (h1.symm.trans hd)
    rcases hA.2 with h | h <;> simp [raw, h] at h2
  | @str o i w h1 h2 h3 h4 h5 h6 ih =>
    intro d hd hA
    obtain rfl := Option.some.inj (h1.symm.trans hd)
    refine ⟨h4, (Ev.all (count w) (P := fun k g => 1 ≤ k → Step h0 K t m0 g o (i + k)) fun k hk =>
      Ev.imp fun k1 => ?_).mono fun g hg k k1 k2 => hg k k2 k1⟩
    exact ih k _ k1 hk (List.getElem?_eq_getElem (by omega)) _ (List.getElem?_eq_getElem (by omega))
  | @named o a w h1 h2 h3 =>
    exact Ev.up (Ev.of (P := fun _ => True) fun _ => trivial) fun g _ => made_named h1 h2 (hs.named w h3)
  | @obj o a w h1 h2 h3 h4 h5 h6 ih =>
    have hev : Ev fun g => ∀ k, k ≤ count w → 1 ≤ k → Step h0 K t m0 g o k :=
      Ev.all (count w) fun k hk => Ev.imp fun k1 =>
        ih k _ k1 hk (List.getElem?_eq_getElem (by omega)) _ (List.getElem?_eq_getElem (by omega))
    exact Ev.up hev fun g hg => made_object hs h1 h2 h5 fun k k1 k2 => hg k k2 k1

end Verif.Abstract
