import Verif.Instance.Read
/-!
# C77: an instance of a model or state keeps the bindings

The bindings are written with `build_f_ihlp` and read back with `init_from_f_ihlp` into the initial bindings
of the model or state.
-/
namespace Verif.Instance
open Verif.Atom Verif.Words Verif.BindMap Verif.Values

/-- The instance and its fact can be made, and, unless one of them exceeds 4096 words or references, reading
them gives every variable of the template arguments and every exposed variable what it had. -/
def RoundTrip (ti : Word) (hlp : Code) (t : Word) (m m0 : BMap) (id : Nat) (op fop : BitVec 16) (wr : Bool) : Prop :=
  ∃ f, ∀ g, f ≤ g → ∃ o fact, buildIhlp ti g m hlp id op wr = some o ∧ buildFact g m fop = some fact ∧
    (o.code.length ≤ 4096 → o.refs.length ≤ 4096 → fact.code.length ≤ 4096 →
      ∃ f', ∀ g', f' ≤ g' → ∃ m', initFrom g' hlp o fact m0 = some m' ∧
        ∀ v, v < m.slots.length → (Occurs hlp v (asIndex t).toNat ∨ m.first.toNat ≤ v) →
          ∃ s s', m.slots[v]? = some s ∧ m'.slots[v]? = some s' ∧ Same s s')

/-- C77: for every model or state with template arguments over its variables, every bindings of it whose first
timings are bound. -/
def C77_full : Prop :=
  ∀ (ti : Word) (hlp : Code) (t : Word) (m m0 : BMap) (n id : Nat) (op fop : BitVec 16) (wr : Bool),
    hlp[1]? = some t → Args n hlp (asIndex t).toNat → n ≤ m.slots.length → Ready m m0 →
    RoundTrip ti hlp t m m0 id op fop wr

/-- C77 when all variables of the template arguments are bound and none is in a `ti` structure. -/
theorem C77_instance_partial (ti : Word) (hlp : Code) (t : Word) (m m0 : BMap) (n id : Nat) (op fop : BitVec 16)
    (wr : Bool) (ht : hlp[1]? = some t) (hA : Args n hlp (asIndex t).toNat) (hn : n ≤ m.slots.length)
    (R : Ready m m0) (hB : AllBound ti m hlp (asIndex t).toNat) : RoundTrip ti hlp t m m0 id op fop wr := by
  obtain ⟨a, b, ca, cb, ha, hb, hab, fa, fb, sa, sb⟩ := R.timings
  refine ((buildIhlp_total (ti := ti) (id := id) (op := op) (wr := wr) R ht hn hA).and
    (buildFact_total (fop := fop) ha hb R.good sa sb)).mono fun g hg => ?_
  obtain ⟨o, ho⟩ := Option.isSome_iff_exists.1 hg.1
  obtain ⟨fact, hfact⟩ := Option.isSome_iff_exists.1 hg.2
  refine ⟨o, fact, ho, hfact, fun h4 hr4 hf4 => ?_⟩
  obtain ⟨u, x, hu, hx, hI, hE⟩ := buildIhlp_spec R ht hA ho h4 hr4
  obtain ⟨⟨w2, hw2, hwr2⟩, ⟨w3, hw3, hwr3⟩⟩ := buildFact_spec hfact ha hb R.good sa sb hf4
  refine ((initArgs_spec R.good (hI hB)).and ((initExposed_spec R.good _ _ _ hE).and
    ((initTiming_spec R.good sa hw2 hwr2).and (initTiming_spec R.good sb hw3 hwr3)))).mono fun g' hg' => ?_
  obtain ⟨g1, g2, g3, g4⟩ := hg'
  obtain ⟨m1, r1, s1, o1⟩ := g1 m0 R.len
  simp only at r1
  have hun : ∀ (v : Nat) u, m.slots[v]? = some (Slot.unbound u) → SameAt m m1 v := fun v u hu =>
    SameAt.step ⟨_, _, hu, R.still v u hu, rfl⟩ s1
  have e1 : m1.slots.length = m.slots.length := s1.len.trans R.len
  obtain ⟨m2, r2, s2, o2⟩ := g2 m1 e1 (s1.after.trans R.after) (s1.before.trans R.before) hun
  have e2 : m2.slots.length = m.slots.length := s2.len.trans e1
  obtain ⟨m3, r3, s3, o3⟩ := g3 m2 e2
  obtain ⟨m4, r4, s4, o4⟩ := g4 m3 (s3.len.trans e2)
  have f1 : m1.first = m.first := s1.first.trans R.first
  have a2 : m2.fwdAfter = (a : Int) := by rw [s2.after, s1.after, R.after, ha]
  have b3 : m3.fwdBefore = (b : Int) := by rw [s3.before, s2.before, s1.before, R.before, hb]
  refine ⟨m4, ?_, fun v hv hor => ?_⟩
  · simp only [initFrom, ht, hu, hx]
    rw [show ix t = (asIndex t).toNat from rfl, show ix u = (asIndex u).toNat from rfl,
      show ix x = (asIndex x).toNat from rfl, r1]
    simp only [Option.bind_some]
    rw [e1, f1, r2]
    simp only [Option.bind_some]
    rw [a2, r3]
    simp only [Option.bind_some]
    rw [b3, r4]
  · show SameAt m m4 v
    rcases hor with h | h
    · exact (((o1 v h).step s2).step s3).step s4
    · by_cases hva : v = a
      · subst hva; exact o3.step s4
      · by_cases hvb : v = b
        · subst hvb; exact o4
        · refine ((o2 v h (by omega) ?_).step s3).step s4
          simp only [isFwd, ha, hb, Bool.or_eq_false_iff, beq_eq_false_iff_ne]
          omega

/-! ## Cases -/

/-- `Atom::Object(Opcodes::TI, 2)` with opcode 7. -/
def tiW : Word := object 7 2

/-- A timestamp. -/
def tsC (lo : Word) : Code := [timestamp, 0, lo]

/-- A model with template arguments `[(ti v0 v1) v2]`. -/
def hlp1 : Code := [object 9 6, iPointer 2, set 2, iPointer 5, vlPointer 2, tiW, vlPointer 0, vlPointer 1]

/-- Template arguments in `ti`, `v0` and `v1`, and `v2`; `v3` exposed; `v4`, `v5` first timings. -/
def map1 : BMap :=
  { slots := [.bound (.struct (tsC 10)), .bound (.struct (tsC 20)), .bound (.atom (float 0x3F800000)),
      .bound (.obj 4), .bound (.struct (tsC 30)), .bound (.struct (tsC 40))],
    first := 3, fwdAfter := 4, fwdBefore := 5 }

/-- The initial bindings. -/
def init1 : BMap :=
  { slots := [.unbound 0, .unbound 1, .unbound 2, .unbound 3, .unbound 4, .unbound 5],
    first := 3, fwdAfter := 4, fwdBefore := 5 }

/-- The same with `v2` unbound. -/
def map2 : BMap := { map1 with slots := map1.slots.set 2 (.unbound 2) }

/-- The same model with an object of another class in the place of `ti`. -/
def hlp2 : Code := [object 9 6, iPointer 2, set 2, iPointer 5, vlPointer 2, object 8 2, vlPointer 0, vlPointer 1]

theorem ts_good (lo : Word) (h : getDescriptor lo ≠ 0x84) : Plain (tsC lo) 0 ∧ Whole (tsC lo) 0 ∧ NoRefs (tsC lo) 0 := by
  have hc : count timestamp = 2 := by decide
  refine ⟨Plain.mk (h := timestamp) rfl (fun _ k w h1 h2 hw => ?_) (fun h => absurd h (by decide)),
    Whole.mk (h := timestamp) rfl (by decide) (by rw [hc]; simp [tsC]) (fun h => absurd h (by decide)),
    norefs_raw (h := timestamp) rfl (by decide)⟩
  rw [hc] at h2
  have : k = 1 ∨ k = 2 := by omega
  rcases this with rfl | rfl
  · simp [tsC] at hw; subst hw; decide
  · simp [tsC] at hw; subst hw; exact h

theorem slots_cases {P : Nat → Slot → Prop} {l : List Slot} (h : ∀ v, v < l.length → ∀ s, l[v]? = some s → P v s) :
    ∀ v s, l[v]? = some s → P v s := fun v s hs => h v (List.getElem?_eq_some_iff.1 hs).1 s hs

theorem good1 : ∀ (v : Nat) s, map1.slots[v]? = some s → Storable s := by
  refine slots_cases fun v hv s hs => ?_
  have hv' : v < 6 := hv
  match v, hv' with
  | 0, _ => obtain rfl := Option.some.inj hs; exact ts_good _ (by decide)
  | 1, _ => obtain rfl := Option.some.inj hs; exact ts_good _ (by decide)
  | 2, _ => obtain rfl := Option.some.inj hs; exact ⟨by decide, by decide, by decide, by decide, by decide⟩
  | 3, _ => obtain rfl := Option.some.inj hs; trivial
  | 4, _ => obtain rfl := Option.some.inj hs; exact ts_good _ (by decide)
  | 5, _ => obtain rfl := Option.some.inj hs; exact ts_good _ (by decide)

theorem ready1 : Ready map1 init1 :=
  ⟨rfl, by decide, rfl, rfl, rfl, by
    intro v u hu
    have hv : v < 6 := (List.getElem?_eq_some_iff.1 hu).1
    match v, hv with
    | 0, _ => exact absurd hu (by simp [map1])
    | 1, _ => exact absurd hu (by simp [map1])
    | 2, _ => exact absurd hu (by simp [map1])
    | 3, _ => exact absurd hu (by simp [map1])
    | 4, _ => exact absurd hu (by simp [map1])
    | 5, _ => exact absurd hu (by simp [map1]), good1, 4, 5, tsC 30, tsC 40, by decide⟩

theorem ready2 : Ready map2 init1 :=
  ⟨rfl, by decide, rfl, rfl, rfl, by
    intro v u hu
    have hv : v < 6 := (List.getElem?_eq_some_iff.1 hu).1
    match v, hv with
    | 0, _ => exact absurd hu (by simp [map2, map1])
    | 1, _ => exact absurd hu (by simp [map2, map1])
    | 2, _ =>
      have : Slot.unbound 2 = Slot.unbound u := Option.some.inj hu
      rw [← this]; rfl
    | 3, _ => exact absurd hu (by simp [map2, map1])
    | 4, _ => exact absurd hu (by simp [map2, map1])
    | 5, _ => exact absurd hu (by simp [map2, map1]), by
    intro v s hs
    by_cases h2 : v = 2
    · subst h2
      obtain rfl := Option.some.inj hs
      trivial
    · exact good1 v s (by rw [← hs]; exact (List.getElem?_set_ne (fun e => h2 e.symm)).symm),
    4, 5, tsC 30, tsC 40, by decide⟩

theorem members2 {P : Nat → Word → Prop} {c : Code} {i : Nat} {a b : Word} (ha : c[i + 1]? = some a)
    (hb : c[i + 2]? = some b) (pa : P 1 a) (pb : P 2 b) :
    ∀ k w, 1 ≤ k → k ≤ 2 → c[i + k]? = some w → P k w := by
  intro k w h1 h2 hw
  have : k = 1 ∨ k = 2 := by omega
  rcases this with rfl | rfl
  · rw [ha] at hw; obtain rfl := Option.some.inj hw; exact pa
  · rw [hb] at hw; obtain rfl := Option.some.inj hw; exact pb

theorem args_of {hlp : Code} {x : Word} (h1 : hlp[2]? = some (set 2)) (h2 : hlp[3]? = some (iPointer 5))
    (h3 : hlp[4]? = some (vlPointer 2)) (h4 : hlp[5]? = some x) (h5 : hlp[6]? = some (vlPointer 0))
    (h6 : hlp[7]? = some (vlPointer 1)) (hl : hlp.length = 8) (hx : count x = 2)
    (hd : getDescriptor x ≠ 0x84) (hr : raw x = false) : Args 3 hlp 2 := by
  have hc : count (set 2) = 2 := by decide
  have hs : Args 3 hlp 5 := by
    refine Args.mk h4 hd (by omega) (fun h => absurd (h.symm.trans hr) (by decide)) ?_ ?_
    · rw [hx]
      exact members2 h5 h6 (fun _ => by decide) (fun _ => by decide)
    · rw [hx]
      exact members2 h5 h6 (fun h => absurd h (by decide)) (fun h => absurd h (by decide))
  refine Args.mk h1 (by decide) (by rw [hc]; omega) (fun h => absurd h (by decide)) ?_ ?_
  · rw [hc]
    exact members2 h2 h3 (fun h => absurd h (by decide)) (fun _ => by decide)
  · rw [hc]
    exact members2 h2 h3 (fun _ => hs) (fun h => absurd h (by decide))

theorem args1 : Args 3 hlp1 2 := args_of (x := tiW) rfl rfl rfl rfl rfl rfl rfl (by decide) (by decide) (by decide)
theorem args2 : Args 3 hlp2 2 :=
  args_of (x := object 8 2) rfl rfl rfl rfl rfl rfl rfl (by decide) (by decide) (by decide)

theorem bound2 : AllBound tiW map1 hlp2 2 := by
  have hc : count (set 2) = 2 := by decide
  have hx : count (object 8 2) = 2 := by decide
  have hs : AllBound tiW map1 hlp2 5 := by
    refine AllBound.mk (h := object 8 2) rfl ?_ ?_
    · rw [hx]
      exact members2 (a := vlPointer 0) (b := vlPointer 1) rfl rfl (fun _ => ⟨by decide, _, rfl⟩)
        (fun _ => ⟨by decide, _, rfl⟩)
    · rw [hx]
      exact members2 (a := vlPointer 0) (b := vlPointer 1) rfl rfl (fun h => absurd h (by decide))
        (fun h => absurd h (by decide))
  refine AllBound.mk (h := set 2) rfl ?_ ?_
  · rw [hc]
    exact members2 (a := iPointer 5) (b := vlPointer 2) rfl rfl (fun h => absurd h (by decide))
      (fun _ => ⟨by decide, _, rfl⟩)
  · rw [hc]
    exact members2 (a := iPointer 5) (b := vlPointer 2) rfl rfl (fun _ => hs) (fun h => absurd h (by decide))

theorem occurs2 : Occurs hlp2 2 2 :=
  Occurs.here (k := 2) (h := set 2) (w := vlPointer 2) rfl (by decide) (by decide) rfl (by decide) (by decide)

/-- The instance and the fact made from `map2`. -/
def o2 : Obj := (buildIhlp tiW 10 map2 hlp2 1 3 true).getD ⟨[], []⟩
/-- The fact. -/
def fact2 : Obj := (buildFact 10 map2 5).getD ⟨[], []⟩

theorem o2_made (n : Nat) : buildIhlp tiW (n + 10) map2 hlp2 1 3 true = some o2 := rfl
theorem fact2_made (n : Nat) : buildFact (n + 10) map2 5 = some fact2 := rfl
theorem o2_read (n : Nat) : ((initFrom (n + 10) hlp2 o2 fact2 init1).bind fun m => m.slots[2]?) =
    some (.bound (.atom (vlPointer 2))) := rfl

/-- C77 does not hold.
* A variable of the template arguments that is not bound is bound after reading, to the atom that names the
  variable.
* Variables in a `ti` structure of the template arguments are not written; after reading they are bound to the
  atom that names the variable, though they were bound to timestamps. -/
theorem C77_instance_violated : ¬ C77_full ∧
    (map2.slots[2]? = some (.unbound 2) ∧ ∃ o fact m', buildIhlp tiW 10 map2 hlp2 1 3 true = some o ∧
      buildFact 10 map2 5 = some fact ∧ initFrom 10 hlp2 o fact init1 = some m' ∧
      m'.slots[2]? = some (.bound (.atom (vlPointer 2)))) ∧
    (map1.slots[0]? = some (.bound (.struct (tsC 10))) ∧ ∃ o fact m', buildIhlp tiW 10 map1 hlp1 1 3 true = some o ∧
      buildFact 10 map1 5 = some fact ∧ initFrom 10 hlp1 o fact init1 = some m' ∧
      m'.slots[0]? = some (.bound (.atom (vlPointer 0))) ∧ m'.slots[2]? = map1.slots[2]?) := by
  refine ⟨fun H => ?_, ⟨rfl, _, _, _, rfl, rfl, rfl, rfl⟩, ⟨rfl, _, _, _, rfl, rfl, rfl, rfl, rfl⟩⟩
  obtain ⟨f, hf⟩ := H tiW hlp2 (iPointer 2) map2 init1 3 1 3 5 true rfl args2 (by decide) ready2
  obtain ⟨o, fact, ho, hfa, hr⟩ := hf (f + 10) (by omega)
  obtain rfl := Option.some.inj ((o2_made f).symm.trans ho)
  obtain rfl := Option.some.inj ((fact2_made f).symm.trans hfa)
  obtain ⟨f', hf'⟩ := hr (by decide) (by decide) (by decide)
  obtain ⟨m', hm', hall⟩ := hf' (f' + 10) (by omega)
  obtain ⟨s, s', hs, hs', hsm⟩ := hall 2 (by decide) (Or.inl occurs2)
  have h := o2_read f'
  rw [hm'] at h
  simp only [Option.bind_some] at h
  obtain rfl := Option.some.inj (h.symm.trans hs')
  obtain rfl : Slot.unbound 2 = s := Option.some.inj hs
  exact hsm

/-- The hypotheses of `C77_instance_partial` hold for template arguments with a nested structure, bound to
timestamps and a number, and an exposed object; what is read back is what was written. -/
theorem C77_nonvacuous : hlp2[1]? = some (iPointer 2) ∧ Args 3 hlp2 (asIndex (iPointer 2)).toNat ∧
    3 ≤ map1.slots.length ∧ Ready map1 init1 ∧ AllBound tiW map1 hlp2 (asIndex (iPointer 2)).toNat ∧
    (∀ v : Nat, v < 3 → Occurs hlp2 v 2) ∧
    ∃ o fact m', buildIhlp tiW 10 map1 hlp2 1 3 true = some o ∧ buildFact 10 map1 5 = some fact ∧
      initFrom 10 hlp2 o fact init1 = some m' ∧ m'.slots = map1.slots ∧ init1.slots ≠ map1.slots := by
  refine ⟨rfl, args2, by decide, ready1, bound2, ?_, _, _, _, rfl, rfl, rfl, rfl, by decide⟩
  have hs : ∀ v : Nat, v < 2 → Occurs hlp2 v 5 := by
    intro v hv
    have : v = 0 ∨ v = 1 := by omega
    rcases this with rfl | rfl
    · exact Occurs.here (k := 1) (h := object 8 2) (w := vlPointer 0) rfl (by decide) (by decide) rfl (by decide) (by decide)
    · exact Occurs.here (k := 2) (h := object 8 2) (w := vlPointer 1) rfl (by decide) (by decide) rfl (by decide) (by decide)
  intro v hv
  by_cases h2 : v = 2
  · subst h2; exact occurs2
  · exact Occurs.sub (k := 1) (h := set 2) (w := iPointer 5) rfl (by decide) (by decide) rfl (by decide)
      (hs v (by omega))

end Verif.Instance
