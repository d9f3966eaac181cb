import Verif.Sims.Model
import Verif.Atom.Lemmas
/-!
# Properties C34 and C35
-/
namespace Verif.Sims
open Verif.Atom Verif.Words

/-! ## C34 -/

theorem asIndex_iPointer4 : (asIndex (iPointer 4)).toNat = 4 := by decide

theorem asIndex_rPointer (i : Nat) (hi : i < 4096) : (asIndex (rPointer (BitVec.ofNat 16 i))).toNat = i := by
  rw [asIndex_toNat, rPointer, ptr_toNat, BitVec.toNat_ofNat]
  omega

theorem asIndex_set (n : Nat) (hn : n < 256) : (asIndex (set (BitVec.ofNat 8 n))).toNat = n := by
  rw [asIndex_toNat, set_toNat, BitVec.toNat_ofNat]
  omega

theorem getSim_zero (op : BitVec 16) (psln : BitVec 32) (t : Nat) (sims : List Nat) (hn : sims.length < 256) :
    getSim (construct op psln t sims) 0 = (t :: sims)[sims.length]? := by
  simp only [getSim, construct, List.cons_append, List.nil_append, List.getElem?_cons_succ,
    List.getElem?_cons_zero, asIndex_iPointer4]
  simp only [Nat.add_zero, List.getElem?_cons_succ, List.getElem?_cons_zero, asIndex_set _ hn]

theorem getSim_succ (op : BitVec 16) (psln : BitVec 32) (t : Nat) (sims : List Nat) (hn : sims.length < 4095)
    (i : Nat) (hi : i < sims.length) :
    getSim (construct op psln t sims) (i + 1) = sims[i]? := by
  simp only [getSim, construct, List.cons_append, List.nil_append, List.getElem?_cons_succ,
    List.getElem?_cons_zero, asIndex_iPointer4]
  rw [show 4 + (i + 1) = i + 1 + 1 + 1 + 1 + 1 by omega]
  simp only [List.getElem?_cons_succ]
  rw [List.getElem?_map, List.getElem?_range hi]
  simp only [Option.map_some]
  rw [asIndex_rPointer _ (by omega), Nat.add_comm 1 i, List.getElem?_cons_succ]

theorem simsSize_construct (op : BitVec 16) (psln : BitVec 32) (t : Nat) (sims : List Nat) :
    simsSize (construct op psln t sims) = some (sims.length % 256) := by
  simp only [simsSize, construct, List.cons_append, List.nil_append, List.getElem?_cons_succ,
    List.getElem?_cons_zero, asIndex_iPointer4]
  rw [getAtomCount_count _ (by rw [set_toNat, BitVec.toNat_ofNat]; simp; omega), getDeviceID_toNat, set_toNat,
    BitVec.toNat_ofNat]
  congr 1
  omega

theorem simsFrom_eq (p : Pred) (l : List Nat) (i : Nat) (h : ∀ j (hj : j < l.length), getSim p (i + j) = some l[j]) :
    simsFrom p i l.length = some l := by
  induction l generalizing i with
  | nil => rfl
  | cons a l ih =>
    have h0 : getSim p i = some a := h 0 (by simp)
    have h1 := ih (i + 1) (fun j hj => by
      have := h (j + 1) (by simpa using hj)
      rw [show i + 1 + j = i + (j + 1) by omega, this]; rfl)
    simp only [List.length_cons, simsFrom, h0, h1]

/-- What the loops run over: the last simulation, then the others in order. -/
def turned (l : List Nat) : List Nat :=
  match l.getLast? with
  | none => []
  | some a => a :: l.dropLast

theorem turned_concat (l : List Nat) (a : Nat) : turned (l ++ [a]) = a :: l := by
  simp [turned]

theorem simsOf_construct (op : BitVec 16) (psln : BitVec 32) (t : Nat) (sims : List Nat)
    (hn : sims.length < 256) : simsOf (construct op psln t sims) = some (turned sims) := by
  unfold simsOf
  rw [simsSize_construct, Nat.mod_eq_of_lt hn]
  simp only
  rcases List.eq_nil_or_concat sims with rfl | ⟨l, a, rfl⟩
  · rfl
  · rw [List.concat_eq_append] at *
    rw [turned_concat]
    have hl : (l ++ [a]).length = (a :: l).length := by simp
    rw [hl]
    refine simsFrom_eq _ _ _ fun j hj => ?_
    rw [Nat.zero_add]
    cases j with
    | zero =>
      rw [getSim_zero _ _ _ _ hn]
      simp
    | succ j =>
      simp only [List.length_cons] at hj
      rw [getSim_succ _ _ _ _ (by omega) j (by simp; omega)]
      rw [List.getElem?_append_left (by omega), List.getElem?_eq_getElem (by omega)]
      rfl

theorem mem_turned (l : List Nat) (s : Nat) : s ∈ turned l ↔ s ∈ l := by
  rcases List.eq_nil_or_concat l with rfl | ⟨l, a, rfl⟩
  · simp [turned]
  · rw [List.concat_eq_append, turned_concat]
    simp [or_comm]

/-- C34, in full. -/
def C34_full : Prop :=
  ∀ (op : BitVec 16) (psln : BitVec 32) (target : Nat) (sims : List Nat),
    (∀ i, i < sims.length → getSim (construct op psln target sims) i = sims[i]?) ∧
    (∀ s, hasSim (construct op psln target sims) s = some (decide (s ∈ sims))) ∧
    (∀ (rootOf : Nat → Nat) root, simWithRoot rootOf (construct op psln target sims) root =
      some (sims.find? fun s => rootOf s == root))

/-- C34 does not hold: of two simulations the first is the second one; of two simulations with the
same root, the later is found first; and of 256 simulations none is seen. -/
theorem C34_simulations_violated : ¬ C34_full ∧
    (∀ op psln target a b, getSim (construct op psln target [a, b]) 0 = some b ∧
      getSim (construct op psln target [a, b]) 1 = some a) ∧
    (∀ op psln target a b, simWithRoot (fun _ => 7) (construct op psln target [a, b]) 7 = some (some b)) ∧
    (∀ op psln target sims s, sims.length = 256 →
      hasSim (construct op psln target sims) s = some false) := by
  have two : ∀ op psln target a b, getSim (construct op psln target [a, b]) 0 = some b ∧
      getSim (construct op psln target [a, b]) 1 = some a := by
    intro op psln target a b
    exact ⟨by rw [getSim_zero _ _ _ _ (by simp)]; rfl, by rw [getSim_succ _ _ _ _ (by simp) 0 (by simp)]; rfl⟩
  refine ⟨fun hf => ?_, two, ?_, ?_⟩
  · have h := (hf 0 0 1 [2, 3]).1 0 (by simp)
    rw [(two 0 0 1 2 3).1] at h
    exact absurd h (by decide)
  · intro op psln target a b
    unfold simWithRoot
    rw [simsOf_construct _ _ _ _ (by simp)]
    rfl
  · intro op psln target sims s hl
    have : simsOf (construct op psln target sims) = some [] := by
      unfold simsOf; rw [simsSize_construct, hl]; rfl
    unfold hasSim; rw [this]; rfl

/-- C34, what holds for up to 255 simulations: the position is one off (the last simulation comes
first), which a single simulation hides; the queries range over exactly the given simulations; the
one found for a root is one of those with the root, and the right one if they are the same; a copy
has the same simulations.  Missing: the order, and more than 255 simulations. -/
theorem C34_simulations_partial (op : BitVec 16) (psln : BitVec 32) (target : Nat) (sims : List Nat)
    (hn : sims.length < 256) :
    (∀ i, i < sims.length → getSim (construct op psln target sims) i =
      if i = 0 then sims.getLast? else sims[i - 1]?) ∧
    (sims.length ≤ 1 → ∀ i, i < sims.length → getSim (construct op psln target sims) i = sims[i]?) ∧
    (∀ s, hasSim (construct op psln target sims) s = some (decide (s ∈ sims))) ∧
    (∀ (rootOf : Nat → Nat) root, ∃ r, simWithRoot rootOf (construct op psln target sims) root = some r ∧
      (r = none ↔ ∀ s ∈ sims, rootOf s ≠ root) ∧ (∀ s, r = some s → s ∈ sims ∧ rootOf s = root) ∧
      ((∀ a ∈ sims, ∀ b ∈ sims, rootOf a = root → rootOf b = root → a = b) →
        r = sims.find? fun s => rootOf s == root)) ∧
    (∀ op' psln' target' p, copy op' psln' target' (construct op psln target sims) = some p →
      ∀ s, hasSim p s = some (decide (s ∈ sims))) := by
  have first : ∀ i, i < sims.length → getSim (construct op psln target sims) i =
      if i = 0 then sims.getLast? else sims[i - 1]? := by
    intro i hi
    cases i with
    | zero =>
      rw [getSim_zero _ _ _ _ hn, if_pos rfl, List.getLast?_eq_getElem?]
      cases sims with
      | nil => simp at hi
      | cons a l => simp
    | succ i =>
      rw [getSim_succ _ _ _ _ (by omega) i (by omega), if_neg (by omega), Nat.add_sub_cancel]
  have has : ∀ op psln target (sims : List Nat), sims.length < 256 →
      ∀ s, hasSim (construct op psln target sims) s = some (decide (s ∈ sims)) := by
    intro op psln target sims hn s
    unfold hasSim
    rw [simsOf_construct _ _ _ _ hn]
    simp only
    congr 1
    rw [Bool.eq_iff_iff]
    simp [mem_turned]
  refine ⟨first, ?_, has op psln target sims hn, ?_, ?_⟩
  · intro h1 i hi
    have : i = 0 := by omega
    subst this
    rw [first 0 hi, if_pos rfl, List.getLast?_eq_getElem?]
    congr 1; omega
  · intro rootOf root
    refine ⟨(turned sims).find? fun s => rootOf s == root, ?_, ?_, ?_, ?_⟩
    · unfold simWithRoot; rw [simsOf_construct _ _ _ _ hn]
    · rw [List.find?_eq_none]
      constructor
      · intro h s hs; simpa using h s ((mem_turned sims s).mpr hs)
      · intro h s hs; simpa using h s ((mem_turned sims s).mp hs)
    · intro s hs
      have h1 := List.mem_of_find?_eq_some hs
      have h2 := List.find?_some hs
      exact ⟨(mem_turned sims s).mp h1, by simpa using h2⟩
    · intro hu
      cases h : (turned sims).find? fun s => rootOf s == root with
      | none =>
        symm
        rw [List.find?_eq_none] at h ⊢
        intro s hs; exact h s ((mem_turned sims s).mpr hs)
      | some a =>
        have a1 := (mem_turned sims a).mp (List.mem_of_find?_eq_some h)
        have a2 : rootOf a = root := by simpa using List.find?_some h
        cases h' : sims.find? fun s => rootOf s == root with
        | none =>
          rw [List.find?_eq_none] at h'
          exact absurd a2 (by simpa using h' a a1)
        | some b =>
          have b1 := List.mem_of_find?_eq_some h'
          have b2 : rootOf b = root := by simpa using List.find?_some h'
          rw [hu a a1 b b1 a2 b2]
  · intro op' psln' target' p hp s
    unfold copy at hp
    rw [simsOf_construct _ _ _ _ hn] at hp
    simp only [Option.some.injEq] at hp
    subst hp
    have hl : (turned sims).length = sims.length := by
      rcases List.eq_nil_or_concat sims with rfl | ⟨l, a, rfl⟩
      · rfl
      · rw [List.concat_eq_append, turned_concat]; simp
    rw [has _ _ _ _ (by omega)]
    congr 1
    simp [mem_turned]

/-! ## C35 -/

/-- Two goal targets are the same but for their timings: same kind of fact, like contents. -/
def Alike (h : Match.Heap) (oc : Match.Opc) (t : Match.Tol) (f g : Nat) : Prop :=
  ∃ wf wg a b, Match.word h f 0 = some wf ∧ Match.word h g 0 = some wg ∧ asOpcode wf = asOpcode wg ∧
    Match.ref h f 0 = some a ∧ Match.ref h g 0 = some b ∧ Match.ObjLike h oc t true a b

theorem alike_iff (h : Match.Heap) (oc : Match.Opc) (t : Match.Tol) (ha : Match.HasArgs h oc) (n f g : Nat)
    (b : Bool) (hb : alike h oc t n f g = some b) : b = true ↔ Alike h oc t f g := by
  unfold alike at hb
  split at hb
  · rename_i wf wg x y e1 e2 e3 e4
    split at hb
    · rename_i ho
      rw [Match.C19_exact h oc t true n x y b ha hb]
      constructor
      · intro q; exact ⟨wf, wg, x, y, e1, e2, ho, e3, e4, q⟩
      · rintro ⟨wf', wg', x', y', q1, q2, q3, q4, q5, q6⟩
        rw [e3] at q4; rw [e4] at q5
        cases q4; cases q5; exact q6
    · rename_i ho
      cases hb
      constructor
      · intro q; cases q
      · rintro ⟨wf', wg', x', y', q1, q2, q3, _⟩
        rw [e1] at q1; rw [e2] at q2
        cases q1; cases q2; exact absurd q3 ho
  · cases hb

theorem scan_iff {test : Nat → Nat → Option Bool} {R : Nat → Nat → Prop}
    (hR : ∀ f g b, test f g = some b → (b = true ↔ R f g)) (f : Nat) (l : List Nat) (b : Bool)
    (h : scan test f l = some b) : (b = true → ∃ g ∈ l, R f g) ∧ (b = false → ∀ g ∈ l, ¬ R f g) := by
  induction l with
  | nil => simp only [scan, Option.some.injEq] at h; subst h; simp
  | cons g l ih =>
    simp only [scan] at h
    cases e : test f g with
    | none => rw [e] at h; cases h
    | some c =>
      have hc := hR f g c e
      rw [e] at h
      cases c with
      | true =>
        simp only [Option.some.injEq] at h; subst h
        exact ⟨fun _ => ⟨g, by simp, hc.mp rfl⟩, fun q => by cases q⟩
      | false =>
        simp only at h
        obtain ⟨i1, i2⟩ := ih h
        refine ⟨fun q => ?_, fun q x hx => ?_⟩
        · obtain ⟨x, hx, hr⟩ := i1 q; exact ⟨x, List.mem_cons_of_mem _ hx, hr⟩
        · rcases List.mem_cons.mp hx with rfl | hx
          · exact fun hr => absurd (hc.mpr hr) (by simp)
          · exact i2 q x hx

/-- The targets accepted for root `r` in a history, in order. -/
def acceptedFor (rootOf : Nat → Option (Option Nat)) (r : Nat) : List (Nat × Nat) → List Bool → List Nat
  | (sim, f) :: l, b :: bs =>
    if b = true ∧ rootOf sim = some (some r) then f :: acceptedFor rootOf r l bs
    else acceptedFor rootOf r l bs
  | _, _ => []

theorem runCalls_targets {test : Nat → Nat → Option Bool} {rootOf : Nat → Option (Option Nat)}
    (calls : List (Nat × Nat)) (st st' : Targets) (bs : List Bool)
    (h : runCalls test rootOf st calls = some (bs, st')) (r : Nat) :
    bs.length = calls.length ∧ st' r = st r ++ acceptedFor rootOf r calls bs := by
  induction calls generalizing st bs with
  | nil => simp only [runCalls, Option.some.injEq, Prod.mk.injEq] at h; obtain ⟨rfl, rfl⟩ := h; simp [acceptedFor]
  | cons c l ih =>
    obtain ⟨sim, f⟩ := c
    simp only [runCalls] at h
    cases e : register test rootOf st sim f with
    | none => rw [e] at h; cases h
    | some p =>
      obtain ⟨b, st1⟩ := p
      rw [e] at h
      simp only at h
      cases e2 : runCalls test rootOf st1 l with
      | none => rw [e2] at h; cases h
      | some p2 =>
        obtain ⟨bs2, st2⟩ := p2
        rw [e2] at h
        simp only [Option.some.injEq, Prod.mk.injEq] at h
        obtain ⟨rfl, rfl⟩ := h
        obtain ⟨i1, i2⟩ := ih st1 bs2 e2
        refine ⟨by simp [i1], ?_⟩
        rw [i2]
        simp only [acceptedFor]
        unfold register at e
        split at e
        · cases e
        · rename_i hr
          simp only [Option.some.injEq, Prod.mk.injEq] at e
          obtain ⟨rfl, rfl⟩ := e
          rw [if_neg (by rw [hr]; simp)]
        · rename_i r' hr
          split at e
          · cases e
          · simp only [Option.some.injEq, Prod.mk.injEq] at e
            obtain ⟨rfl, rfl⟩ := e
            rw [if_neg (by simp)]
          · simp only [Option.some.injEq, Prod.mk.injEq] at e
            obtain ⟨rfl, rfl⟩ := e
            simp only [push]
            by_cases hrr : r = r'
            · subst hrr
              rw [if_pos rfl, if_pos (by simp [hr])]
              simp
            · rw [if_neg hrr, if_neg (by rw [hr]; simp; exact fun q => hrr q.symm)]

theorem runCalls_snoc {test : Nat → Nat → Option Bool} {rootOf : Nat → Option (Option Nat)}
    (calls : List (Nat × Nat)) (sim f : Nat) (st st' : Targets) (bs : List Bool) (b : Bool)
    (h : runCalls test rootOf st (calls ++ [(sim, f)]) = some (bs ++ [b], st')) :
    ∃ st1, runCalls test rootOf st calls = some (bs, st1) ∧
      register test rootOf st1 sim f = some (b, st') := by
  induction calls generalizing st bs with
  | nil =>
    simp only [List.nil_append, runCalls] at h
    cases e : register test rootOf st sim f with
    | none => rw [e] at h; cases h
    | some p =>
      rw [e] at h
      simp only [Option.some.injEq, Prod.mk.injEq] at h
      obtain ⟨h1, rfl⟩ := h
      have : bs = [] := by
        have := congrArg List.length h1
        simp at this; exact this
      subst this
      simp only [List.nil_append, List.cons.injEq, and_true] at h1
      subst h1
      exact ⟨st, rfl, e⟩
  | cons c l ih =>
    obtain ⟨s0, f0⟩ := c
    simp only [List.cons_append, runCalls] at h
    cases e : register test rootOf st s0 f0 with
    | none => rw [e] at h; cases h
    | some p =>
      obtain ⟨b0, st0⟩ := p
      rw [e] at h
      simp only at h
      cases e2 : runCalls test rootOf st0 (l ++ [(sim, f)]) with
      | none => rw [e2] at h; cases h
      | some p2 =>
        obtain ⟨bs2, st2⟩ := p2
        rw [e2] at h
        simp only [Option.some.injEq, Prod.mk.injEq] at h
        obtain ⟨h1, rfl⟩ := h
        have hlen := (runCalls_targets _ _ _ _ e2 0).1
        cases bs with
        | nil =>
          have := congrArg List.length h1
          simp at this
          simp [this] at hlen
        | cons b1 bs =>
          simp only [List.cons_append, List.cons.injEq] at h1
          obtain ⟨rfl, rfl⟩ := h1
          obtain ⟨st1, q1, q2⟩ := ih st0 bs e2
          refine ⟨st1, ?_, q2⟩
          simp only [runCalls, e, q1]

/-- No targets yet. -/
def noTargets : Targets := fun _ => []

/-- C35, in full: among the targets accepted for a root no two are alike, and a call is refused
exactly when a target like its own was accepted for the root before; with any number of threads. -/
def C35_full : Prop :=
  ∀ (h : Match.Heap) (oc : Match.Opc) (t : Match.Tol) (fuel : Nat) (steps : List Step) (s : Par),
    Match.HasArgs h oc →
    parRun (alike h oc t fuel) ⟨noTargets, [], []⟩ steps = some s →
    s.accepted.Pairwise fun x y => x.1 = y.1 → ¬ Alike h oc t y.2 x.2

/-- Two facts about the same object. -/
def twinHeap : Match.Heap
  | 1 => some { code := [object 9 1, rPointer 0], refs := [3] }
  | 2 => some { code := [object 9 1, rPointer 0], refs := [3] }
  | 3 => some { code := [object 8 1, float 0] }
  | _ => none

def twinOpc : Match.Opc := ⟨1, 2, 3, 4, 5, 6, 7, 9, 10⟩

theorem twinHeap_hasArgs : Match.HasArgs twinHeap twinOpc := by
  intro o w hw hid
  simp only [Match.word] at hw
  unfold twinHeap at hw
  split at hw
  · cases hw; decide
  · cases hw; decide
  · cases hw; decide
  · cases hw

/-- C35 does not hold with two reduction cores: both look before either stores, and both pursue the
same goal. -/
theorem C35_goal_targets_violated : ¬ C35_full ∧
    (parRun (alike twinHeap twinOpc ⟨0, 1⟩ 5) ⟨noTargets, [], []⟩
      [.look 0 0 1, .look 1 0 2, .store 0, .store 1]).map Par.accepted = some [(0, 1), (0, 2)] := by
  have hrun : (parRun (alike twinHeap twinOpc ⟨0, 1⟩ 5) ⟨noTargets, [], []⟩
      [.look 0 0 1, .look 1 0 2, .store 0, .store 1]).map Par.accepted = some [(0, 1), (0, 2)] := by
    decide
  refine ⟨fun hf => ?_, hrun⟩
  cases e : parRun (alike twinHeap twinOpc ⟨0, 1⟩ 5) ⟨noTargets, [], []⟩
      [.look 0 0 1, .look 1 0 2, .store 0, .store 1] with
  | none => rw [e] at hrun; cases hrun
  | some s =>
    rw [e] at hrun
    simp only [Option.map_some, Option.some.injEq] at hrun
    have hp := hf twinHeap twinOpc ⟨0, 1⟩ 5 _ s twinHeap_hasArgs e
    rw [hrun] at hp
    have := (List.pairwise_cons.mp hp).1 (0, 2) (by simp) rfl
    exact this ((alike_iff twinHeap twinOpc ⟨0, 1⟩ twinHeap_hasArgs 5 2 1 true (by decide)).mp rfl)

/-- C35, what holds: if the calls do not overlap, a call whose root simulation is `r` is refused
exactly when a target alike was accepted for `r` before ... -/
theorem C35_refused_iff (h : Match.Heap) (oc : Match.Opc) (t : Match.Tol) (fuel : Nat)
    (ha : Match.HasArgs h oc) (rootOf : Nat → Option (Option Nat)) (calls : List (Nat × Nat)) (sim f r : Nat)
    (bs : List Bool) (b : Bool) (st' : Targets) (hr : rootOf sim = some (some r))
    (hrun : runCalls (alike h oc t fuel) rootOf noTargets (calls ++ [(sim, f)]) = some (bs ++ [b], st')) :
    b = false ↔ ∃ g ∈ acceptedFor rootOf r calls bs, Alike h oc t f g := by
  obtain ⟨st1, q1, q2⟩ := runCalls_snoc _ _ _ _ _ _ _ hrun
  have htg := (runCalls_targets _ _ _ _ q1 r).2
  simp only [noTargets, List.nil_append] at htg
  unfold register at q2
  rw [hr] at q2
  simp only at q2
  cases e : scan (alike h oc t fuel) f (st1 r) with
  | none => rw [e] at q2; cases q2
  | some c =>
    obtain ⟨s1, s2⟩ := scan_iff (fun f g b hb => alike_iff h oc t ha fuel f g b hb) f _ c e
    rw [e, ] at q2
    rw [htg] at s1 s2
    cases c with
    | true =>
      simp only [Option.some.injEq, Prod.mk.injEq] at q2
      obtain ⟨rfl, _⟩ := q2
      exact ⟨fun _ => s1 rfl, fun _ => rfl⟩
    | false =>
      simp only [Option.some.injEq, Prod.mk.injEq] at q2
      obtain ⟨rfl, _⟩ := q2
      refine ⟨fun q => absurd q (by simp), ?_⟩
      rintro ⟨g, hg, hl⟩
      exact absurd hl (s2 rfl g hg)

theorem acceptedFor_snoc (rootOf : Nat → Option (Option Nat)) (r : Nat) (calls : List (Nat × Nat)) (c : Nat × Nat)
    (bs : List Bool) (b : Bool) (hl : bs.length = calls.length) :
    acceptedFor rootOf r (calls ++ [c]) (bs ++ [b]) =
      acceptedFor rootOf r calls bs ++ (if b = true ∧ rootOf c.1 = some (some r) then [c.2] else []) := by
  induction calls generalizing bs with
  | nil =>
    cases bs with
    | nil => simp only [List.nil_append, acceptedFor]
    | cons _ _ => simp at hl
  | cons d l ih =>
    cases bs with
    | nil => simp at hl
    | cons b0 bs =>
      simp only [List.cons_append, acceptedFor]
      rw [ih bs (by simpa using hl)]
      split <;> simp

/-- ... and no two accepted ones are alike.  Missing: overlapping calls, and calls on a simulation
without a root (accepted without being recorded). -/
theorem C35_goal_targets_partial (h : Match.Heap) (oc : Match.Opc) (t : Match.Tol) (fuel : Nat)
    (ha : Match.HasArgs h oc) (rootOf : Nat → Option (Option Nat)) (calls : List (Nat × Nat))
    (bs : List Bool) (st' : Targets) (r : Nat)
    (hrun : runCalls (alike h oc t fuel) rootOf noTargets calls = some (bs, st')) :
    (acceptedFor rootOf r calls bs).Pairwise fun x y => ¬ Alike h oc t y x := by
  induction hn : calls.length generalizing calls bs st' with
  | zero =>
    have : calls = [] := List.length_eq_zero_iff.mp hn
    subst this
    cases bs <;> simp [acceptedFor]
  | succ n ih =>
    have hlen := (runCalls_targets _ _ _ _ hrun r).1
    rcases List.eq_nil_or_concat calls with rfl | ⟨l, c, rfl⟩
    · simp at hn
    rcases List.eq_nil_or_concat bs with rfl | ⟨bs', b, rfl⟩
    · simp at hlen
    obtain ⟨sim, f⟩ := c
    simp only [List.concat_eq_append] at *
    have hl : bs'.length = l.length := by simpa using hlen
    obtain ⟨st1, q1, q2⟩ := runCalls_snoc _ _ _ _ _ _ _ hrun
    rw [acceptedFor_snoc _ _ _ _ _ _ hl]
    have hi := ih l bs' st1 q1 (by simpa using hn)
    split
    · rename_i hb
      rw [List.pairwise_append]
      refine ⟨hi, by simp, ?_⟩
      intro g hg y hy
      simp only [List.mem_cons, List.not_mem_nil, or_false] at hy
      rw [hy]
      intro hal
      have := (C35_refused_iff h oc t fuel ha rootOf l sim f r bs' b st' hb.2 hrun).mpr ⟨g, hg, hal⟩
      rw [hb.1] at this; cases this
    · simpa using hi

/-- The hypotheses are met: simulation 5 under root 4; the same goal twice, then another root. -/
def simTree : Nat → Option SimObj
  | 4 => some ⟨true, none⟩
  | 5 => some ⟨false, some 4⟩
  | 6 => some ⟨true, none⟩
  | _ => none

example : (runCalls (alike twinHeap twinOpc ⟨0, 1⟩ 5) (getRootSim simTree 9) noTargets
    [(5, 1), (4, 2), (6, 2)]).map Prod.fst = some [true, false, true] := by decide

end Verif.Sims
