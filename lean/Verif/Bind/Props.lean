import Verif.Bind.Closed
/-!
# C78: binding a pattern gives the pattern with the values of its variables
-/
namespace Verif.Bind
open Verif.Atom Verif.Words Verif.BindMap Verif.Values Verif.Instance

/-- C78: binding a pattern ends, changes no object that exists, and gives the pattern with the values of its
variables (`Bound`): the pattern itself if there is no variable in it and in what it refers to, and otherwise a
new object with the same words, the variables replaced by what stands for their values (`Filled`), and the
references bound likewise. -/
theorem C78_binds (K : Kinds) (m : BMap) (n : Nat) (h : List Obj) (p : Nat)
    (hgood : ∀ (v : Nat) s, m.slots[v]? = some s → Storable s) (hn : n ≤ m.slots.length)
    (hP : Pattern K n h p) :
    ∃ f, ∀ g, f ≤ g → ∃ h' p', bindPattern K m g h p = some (h', p') ∧ h <+: h' ∧ Bound K m h h' p p' := by
  refine (bindPattern_total hgood hn hP).mono fun g hg => ?_
  obtain ⟨⟨h', p'⟩, hx⟩ := Option.isSome_iff_exists.1 (hg h (List.prefix_refl _))
  obtain ⟨h1, h2⟩ := bindPattern_spec hgood _ _ _ _ _ hx (List.prefix_refl _) hP
  exact ⟨h', p', hx, h1, h2⟩

/-- C78: if every variable of the pattern has a value without variables, nothing remains to be bound: no
variable is left in the bound pattern or what it refers to. -/
theorem C78_complete (K : Kinds) (m : BMap) (n : Nat) (h : List Obj) (p : Nat)
    (hgood : ∀ (v : Nat) s, m.slots[v]? = some s → Storable s)
    (hP : Pattern K n h p) (hU : ∀ v, Uses K h v p → ∃ x, m.slots[v]? = some (.bound x) ∧ GroundVal K h x)
    (g : Nat) (h' : List Obj) (p' : Nat) (hb : bindPattern K m g h p = some (h', p'))
    (hS : ∀ (q : Nat) o, h.length ≤ q → h'[q]? = some o → o.code.length ≤ 4096 ∧ o.refs.length ≤ 4096) :
    ¬ HasVar K h' p' :=
  bindPattern_closed hgood _ _ _ _ _ hb (List.prefix_refl _) hP hU hS h' (List.prefix_refl _)

/-- C78: whether a pattern has variables is found out in any number of steps that suffices. -/
theorem C78_needs (K : Kinds) (n : Nat) (h : List Obj) (p : Nat) (hP : Pattern K n h p) :
    ∃ f, ∀ g, f ≤ g → ∃ b, needBinding K h g p = some b ∧ (b = true ↔ HasVar K h p) := by
  refine (need_total hP).mono fun g hg => ?_
  obtain ⟨b, hb⟩ := Option.isSome_iff_exists.1 (hg h (List.prefix_refl _))
  exact ⟨b, hb, need_spec _ _ _ _ (List.prefix_refl _) hP hb⟩

/-! ## A case -/

/-- Opcodes. -/
def kinds : Kinds := ⟨1, 2, 3, 4⟩

/-- An entity; `(cmd v0 v1 e)`; a fact about it from a given time to `v2`. -/
def heap : List Obj :=
  [⟨[object 2 1, float 0x3F800000], []⟩,
   ⟨[object 20 3, vlPointer 0, vlPointer 1, rPointer 0], [0]⟩,
   ⟨[object 10 4, rPointer 0, iPointer 5, vlPointer 2, float 0x3F800000, timestamp, 0, vlPointer 9], [1]⟩]

/-- `v0` is a number, `v1` the entity, `v2` a time. -/
def bindings : BMap := { slots := [.bound (.atom (float 0x40000000)), .bound (.obj 0), .bound (.struct [timestamp, 0, 7])] }

theorem bindings_ground : ∀ (v : Nat) s, bindings.slots[v]? = some s →
    ∃ x, s = .bound x ∧ GroundVal kinds heap x ∧ Storable s := by
  intro v s hs
  have hv : v < 3 := (List.getElem?_eq_some_iff.1 hs).1
  match v, hv with
  | 0, _ =>
    obtain rfl := Option.some.inj hs
    exact ⟨_, rfl, by constructor <;> decide, ⟨by decide, by decide, by decide, by decide, by decide⟩⟩
  | 1, _ =>
    obtain rfl := Option.some.inj hs
    refine ⟨_, rfl, ⟨⟨0, Pattern.fixed (o := ⟨[object 2 1, float 0x3F800000], []⟩) (w := object 2 1) rfl rfl
      (by decide)⟩, fun hv => ?_⟩, trivial⟩
    cases hv with
    | here ho hw hk hv =>
      obtain rfl := Option.some.inj ho
      obtain rfl := Option.some.inj hw
      exact absurd hk (by decide)
    | ref ho hw hk hr hv =>
      obtain rfl := Option.some.inj ho
      obtain rfl := Option.some.inj hw
      exact absurd hk (by decide)
  | 2, _ =>
    obtain rfl := Option.some.inj hs
    have hg : Ground [timestamp, 0, 7] 0 := by
      refine Ground.mk (h := timestamp) rfl (by decide) (by decide) (by decide) ?_ (fun h => absurd h (by decide))
        (fun h => absurd h (by decide))
      intro _ k w h1 h2 hw
      have hc : count timestamp = 2 := by decide
      rw [hc] at h2
      have : k = 1 ∨ k = 2 := by omega
      rcases this with rfl | rfl
      · obtain rfl := Option.some.inj hw; decide
      · obtain rfl := Option.some.inj hw; decide
    exact ⟨_, rfl, hg, hg.plain.1, hg.plain.2, norefs_raw (h := timestamp) rfl (by decide)⟩

/-- The words that are no data. -/
def signs (c : Code) : Nat → Nat → List Nat
  | 0, _ => []
  | k + 1, i =>
    match c[i]? with
    | none => []
    | some w => i :: signs c k (after i w)

theorem signs_all {c : Code} : ∀ k i j w, c.length ≤ i + k → Sign c i j → c[j]? = some w → j ∈ signs c k i := by
  intro k
  induction k with
  | zero =>
    intro i j w hk hs hw
    have := hs.ge
    have := (List.getElem?_eq_some_iff.1 hw).1
    omega
  | succ k ih =>
    intro i j w hk hs hw
    cases hi : c[i]? with
    | none =>
      rw [List.getElem?_eq_none_iff] at hi
      have := hs.ge
      have := (List.getElem?_eq_some_iff.1 hw).1
      omega
    | some x =>
      simp only [signs, hi]
      rcases hs.split with rfl | ⟨w2, hw2, hs2⟩
      · simp
      · rw [hi] at hw2; obtain rfl := Option.some.inj hw2
        refine List.mem_cons_of_mem _ (ih _ _ _ ?_ hs2 hw)
        simp only [after]; omega

/-- Data complete and variables below `n`, computed. -/
def tidy (n : Nat) (c : Code) : Bool :=
  (signs c c.length 1).all fun j => c[j]?.all fun w =>
    (!raw w || decide (j + count w < c.length)) && (getDescriptor w != 0x86 || decide ((asIndex w).toNat < n))

theorem tidy_spec {n : Nat} {c : Code} (h : tidy n c = true) :
    (∀ j w, Sign c 1 j → c[j]? = some w → raw w = true → j + count w < c.length) ∧
    (∀ j v, VarAt c j v → v < n) := by
  have key : ∀ j w, Sign c 1 j → c[j]? = some w →
      (raw w = true → j + count w < c.length) ∧ (getDescriptor w = 0x86 → (asIndex w).toNat < n) := by
    intro j w hs hw
    have := List.all_eq_true.1 h j (signs_all _ _ _ _ (by omega) hs hw)
    rw [hw] at this
    simp only [Option.all_some, Bool.and_eq_true, Bool.or_eq_true, Bool.not_eq_true', bne_iff_ne,
      decide_eq_true_eq] at this
    refine ⟨fun hr => ?_, fun hd => ?_⟩
    · rcases this.1 with h | h
      · rw [hr] at h; exact absurd h (by decide)
      · exact h
    · rcases this.2 with h | h
      · exact absurd hd h
      · exact h
  refine ⟨fun j w hs hw hr => (key j w hs hw).1 hr, ?_⟩
  rintro j v ⟨hs, w, hw, hd, rfl⟩
  exact (key j w hs hw).2 hd

theorem Uses.lt {K : Kinds} {n : Nat} {h : List Obj} {v p : Nat} (hu : Uses K h v p) (hP : Pattern K n h p) :
    v < n := by
  induction hu with
  | here ho hw hk hv =>
    cases hP with
    | fixed ho' hw' hk' =>
      rw [ho] at ho'; obtain rfl := Option.some.inj ho'
      rw [hw] at hw'; obtain rfl := Option.some.inj hw'
      exact absurd hk' hk
    | mk ho' hw' hdata hvar href =>
      rw [ho] at ho'; obtain rfl := Option.some.inj ho'
      exact hvar _ _ hv
  | ref ho hw hk hr _ ih =>
    cases hP with
    | fixed ho' hw' hk' =>
      rw [ho] at ho'; obtain rfl := Option.some.inj ho'
      rw [hw] at hw'; obtain rfl := Option.some.inj hw'
      exact absurd hk' hk
    | mk ho' hw' hdata hvar href =>
      rw [ho] at ho'; obtain rfl := Option.some.inj ho'
      exact ih (href _ hr)

/-- The hypotheses of C78 hold for a fact with a time, about a command with variables and an entity; the result
is as expected; a word of the time that looks like a variable is left alone. -/
theorem C78_nonvacuous : Pattern kinds 3 heap 2 ∧
    (∀ (v : Nat) s, bindings.slots[v]? = some s → Storable s) ∧
    (∀ v, Uses kinds heap v 2 → ∃ x, bindings.slots[v]? = some (.bound x) ∧ GroundVal kinds heap x) ∧
    HasVar kinds heap 2 ∧
    bindPattern kinds bindings 9 heap 2 = some (heap ++
      [⟨[object 20 3, float 0x40000000, rPointer 1, rPointer 0], [0, 0]⟩,
       ⟨[object 10 4, rPointer 0, iPointer 5, iPointer 8, float 0x3F800000, timestamp, 0, vlPointer 9,
         timestamp, 0, 7], [3]⟩], 4) := by
  have hE : Pattern kinds 3 heap 0 :=
    Pattern.fixed (o := ⟨[object 2 1, float 0x3F800000], []⟩) (w := object 2 1) rfl rfl (by decide)
  have hC : Pattern kinds 3 heap 1 := by
    have t : tidy 3 [object 20 3, vlPointer 0, vlPointer 1, rPointer 0] = true := by decide
    refine Pattern.mk (o := ⟨[object 20 3, vlPointer 0, vlPointer 1, rPointer 0], [0]⟩) (w := object 20 3) rfl rfl
      (tidy_spec t).1 (tidy_spec t).2 ?_
    intro r hr
    obtain rfl : r = 0 := by simpa using hr
    exact hE
  have hP : Pattern kinds 3 heap 2 := by
    have t : tidy 3 [object 10 4, rPointer 0, iPointer 5, vlPointer 2, float 0x3F800000, timestamp, 0,
        vlPointer 9] = true := by decide
    refine Pattern.mk (o := ⟨[object 10 4, rPointer 0, iPointer 5, vlPointer 2, float 0x3F800000, timestamp, 0,
        vlPointer 9], [1]⟩) (w := object 10 4) rfl rfl (tidy_spec t).1 (tidy_spec t).2 ?_
    intro r hr
    obtain rfl : r = 1 := by simpa using hr
    exact hC
  refine ⟨hP, fun v s hs => ?_, fun v hv => ?_, ?_, by decide⟩
  · obtain ⟨x, _, _, h⟩ := bindings_ground v s hs; exact h
  · have hv3 : v < bindings.slots.length := hv.lt hP
    have hs := List.getElem?_eq_getElem hv3
    obtain ⟨x, hx, hg, _⟩ := bindings_ground v _ hs
    exact ⟨x, by rw [hs, hx], hg⟩
  · refine HasVar.ref (r := 1) (w := object 10 4) (o := ⟨[object 10 4, rPointer 0, iPointer 5, vlPointer 2,
        float 0x3F800000, timestamp, 0, vlPointer 9], [1]⟩) rfl rfl (by decide) (by decide) ?_
    exact HasVar.here (j := 1) (v := 0) (w := object 20 3)
      (o := ⟨[object 20 3, vlPointer 0, vlPointer 1, rPointer 0], [0]⟩) rfl rfl (by decide)
      ⟨Sign.first, vlPointer 0, rfl, by decide, by decide⟩

end Verif.Bind
