import Verif.LoadTimes.Lemmas
import Mathlib.Tactic.NormNum
/-!
# C69: times of loaded objects
-/
namespace Verif.LoadTimes
set_option linter.dupNamespace false
open Verif.Atom Verif.Words

/-- C69 in full: for every well-formed object and every time of start. -/
def C69_full : Prop :=
  ∀ (c : Code) (ref : Int), c.length ≤ 65536 → Fine c 0 → Apart c → 0 ≤ ref → ref < 2 ^ 63 →
    ∃ f0, ∀ f, f0 ≤ f → ∃ c', initTimestamps ref f c = some c' ∧ Moved ref c c'

/-- C69, the part that holds: in an object in which no time is reached in two ways, without undefined times,
assignments, heads of programs, models and composite states, and whose chains hold no positions that look like
code, every time is moved exactly once and nothing else changes.
Missing: the objects excluded, for which it is false. -/
theorem C69_times_partial (c : Code) (ref : Int) (hlen : c.length ≤ 65536) (hf : Fine c 0) (hap : Apart c)
    (h0 : 0 ≤ ref) (_ : ref < 2 ^ 63) (hpl : Plain c) (hsg : Single c) :
    ∃ f0, ∀ f, f0 ≤ f → ∃ c', initTimestamps ref f c = some c' ∧ Moved ref c c' := by
  obtain ⟨f0, h⟩ := visit h0 hlen hap hpl hsg hf ⟨[], .nil⟩
  refine ⟨f0, fun f hf => ?_⟩
  obtain ⟨s', e, hs⟩ := h f hf (fun _ => False) c (fun _ _ h => h.elim)
    ⟨rfl, fun _ _ h => h.elim, fun _ _ => rfl⟩
  refine ⟨s', e, hs.1, fun t ht => hs.2.1 t ht (.inr ht.1), fun p hp => hs.2.2 p fun t ht _ => hp t ht⟩

/-! ### Concrete objects -/

/-- The words to which word `i` leads. -/
def succ (c : Code) (i : Nat) : List Nat :=
  match c[i]? with
  | none => []
  | some w =>
    (if getDescriptor w = 0x84 ∨ getDescriptor w = 0x8D then [(asIndex w).toNat] else []) ++
    (if getDescriptor w = 0xC0 ∧ 1 ≤ (getAtomCount w).toNat then [i + 1] else []) ++
    (if getDescriptor w ∈ ([0xC1, 0xC2, 0xC3, 0xC4, 0xC5, 0xC8, 0xC9, 0xCA, 0xCB, 0xCC, 0xCD, 0xCE] :
        List (BitVec 8)) then (List.range (getAtomCount w).toNat).map (i + 1 + ·) else [])

theorem succ_of {c : Code} {i k : Nat} (e : Edge c i k) : k ∈ succ c i := by
  cases e with
  | ptr hw hd =>
    simp only [succ, hw, if_pos hd]
    exact List.mem_append_left _ (List.mem_append_left _ (List.mem_singleton.2 rfl))
  | chain hw hd hc => simp only [succ, hw, hd, hc]; simp
  | @member w j hw hd h1 h2 =>
    simp only [succ, hw, if_pos hd]
    refine List.mem_append_right _ (List.mem_map.2 ⟨j - 1, List.mem_range.2 (by omega), by omega⟩)

/-- Whether the words from `i` on are well-formed, to depth `f`. -/
def fineB (c : Code) : Nat → Nat → Bool
  | 0, _ => false
  | f + 1, i =>
    match c[i]? with
    | none => false
    | some w =>
      (getDescriptor w ≠ 0xC7 || decide (i + 2 < c.length)) &&
      (getDescriptor w ≠ 0xC0 || decide (i + (getAtomCount w).toNat < c.length)) &&
      (succ c i).all (fineB c f)

/-- The ways from `i`. -/
def paths (c : Code) : Nat → Nat → List (List Nat × Nat)
  | 0, _ => []
  | f + 1, i => ([], i) :: (succ c i).flatMap fun k => (paths c f k).map fun p => (k :: p.1, p.2)

theorem fineB_fine {c : Code} : ∀ f i, fineB c f i = true → Fine c i
  | 0, _, h => by simp [fineB] at h
  | f + 1, i, h => by
    rw [fineB] at h
    split at h
    · simp at h
    · rename_i w hw
      simp only [Bool.and_eq_true, Bool.or_eq_true, decide_eq_true_eq, List.all_eq_true] at h
      exact .mk hw (fun e => h.1.1.resolve_left (not_not.2 e)) (fun e => h.1.2.resolve_left (not_not.2 e))
        fun k e => fineB_fine f k (h.2 k (succ_of e))

theorem mem_paths {c : Code} : ∀ f i l t, fineB c f i = true → Path c i l t → (l, t) ∈ paths c f i
  | 0, _, _, _, h, _ => by simp [fineB] at h
  | f + 1, i, l, t, h, hp => by
    rw [fineB] at h
    split at h
    · simp at h
    · simp only [Bool.and_eq_true, List.all_eq_true] at h
      rw [paths]
      cases hp with
      | nil => exact List.mem_cons_self
      | @cons _ k l _ e hp =>
        refine List.mem_cons_of_mem _ (List.mem_flatMap.2 ⟨k, succ_of e, List.mem_map.2 ⟨(l, t), ?_, rfl⟩⟩)
        exact mem_paths f k l t (h.2 k (succ_of e)) hp

/-- The words of the object. -/
def words (c : Code) (f : Nat) : List Nat := (paths c f 0).map (·.2)

theorem reach_words {c : Code} {f k : Nat} (h : fineB c f 0 = true) (hr : Reach c k) : k ∈ words c f := by
  obtain ⟨l, hl⟩ := hr
  exact List.mem_map.2 ⟨_, mem_paths f 0 l k h hl, rfl⟩

def isTimeB (c : Code) (t : Nat) : Bool :=
  match c[t]? with
  | none => false
  | some w => getDescriptor w = 0xC7 && w ≠ undefinedTimestamp

theorem time_of {c : Code} {f t : Nat} (h : fineB c f 0 = true) (ht : Time c t) :
    t ∈ words c f ∧ isTimeB c t = true := by
  obtain ⟨hr, w, hw, hd, hu⟩ := ht
  refine ⟨reach_words h hr, ?_⟩
  simp [isTimeB, hw, hd, hu]

def apartB (c : Code) (f : Nat) : Bool :=
  (words c f).all fun t => !isTimeB c t ||
    ([t + 1, t + 2].all fun p => !(words c f).contains p &&
      (words c f).all fun i =>
        match c[i]? with
        | none => true
        | some w => getDescriptor w ≠ 0xC0 || decide (p < i) || decide (i + (getAtomCount w).toNat < p))

theorem apartB_apart {c : Code} {f : Nat} (h : fineB c f 0 = true) (ha : apartB c f = true) : Apart c := by
  intro t ht p hp
  obtain ⟨h1, h2⟩ := time_of h ht
  simp only [apartB, List.all_eq_true, Bool.or_eq_true, Bool.and_eq_true] at ha
  have h3 := (ha t h1).resolve_left (by simp [h2]) p (by simpa using hp)
  refine ⟨fun hr => ?_, fun i w j hr hw hd hj e => ?_⟩
  · have := reach_words h hr
    simp [this] at h3
  · have := h3.2 i (reach_words h hr)
    rw [hw] at this
    simp only [Bool.or_eq_true, decide_eq_true_eq] at this
    rcases this with (h | h) | h
    · exact h hd
    · omega
    · omega

/-- `[obj hd 1] →2, undefined time`: the source `(… |us)`. -/
def undef : Code := [0xC3000101, 0x84000002, undefinedTimestamp, 0xFFFFFFFF, 0xFFFFFFFF]
/-- An instantiated program with a time among its arguments. -/
def ipgm : Code := [0xC9000101, 0x84000002, timestamp, 0, 5]
/-- An object whose first member is a chain `this.x`, where `x` is that member. -/
def chain : Code := [0xC3000101, 0x84000002, 0xC0000002, 0x90000000, 0x84000001]

theorem chain_loops (ref : Int) : ∀ f, update ref f chain 1 = none ∧ update ref f chain 2 = none ∧
    update ref f chain 4 = none := by
  intro f
  induction f with
  | zero => exact ⟨rfl, rfl, rfl⟩
  | succ f ih =>
    refine ⟨?_, ?_, ?_⟩
    · show update ref f chain 2 = none
      exact ih.2.1
    · show (List.range 2).foldlM (fun c j => update ref f c ((2 + (j + 1)) % 65536)) chain = none
      cases f with
      | zero => rfl
      | succ f =>
        have h3 : update ref (f + 1) chain 3 = some chain := rfl
        rw [show List.range 2 = [0, 1] from rfl]
        simp only [List.foldlM_cons, List.foldlM_nil]
        show (update ref (f + 1) chain 3).bind (fun s => (update ref (f + 1) s 4).bind some) = none
        rw [h3]
        simp [ih.2.2]
    · show update ref f chain 1 = none
      exact ih.1

/-- C69 is violated. Starting the memory at 1000 µs makes of the undefined time 999 µs; the time among the
arguments of an instantiated program stays as it was; and a chain to a member that contains it is followed
without end: the position in the chain is taken for a pointer. All three objects are well-formed. -/
theorem C69_times_violated :
    ¬ C69_full ∧
    (∀ c ∈ [undef, ipgm, chain], Fine c 0 ∧ Apart c) ∧
    (∀ f, 3 ≤ f → initTimestamps 1000 f undef = some [0xC3000101, 0x84000002, timestamp, 0, 999]) ∧
    (∀ f, 3 ≤ f → initTimestamps 1000 f ipgm = some ipgm) ∧
    (∀ f, initTimestamps 1000 f chain = none) := by
  have hf : ∀ c ∈ [undef, ipgm, chain], Fine c 0 ∧ Apart c := by
    intro c hc
    simp only [List.mem_cons, List.not_mem_nil, or_false] at hc
    rcases hc with rfl | rfl | rfl
    · exact ⟨fineB_fine 4 0 (by decide), apartB_apart (f := 4) (by decide) (by decide)⟩
    · exact ⟨fineB_fine 4 0 (by decide), apartB_apart (f := 4) (by decide) (by decide)⟩
    · exact ⟨fineB_fine 4 0 (by decide), apartB_apart (f := 4) (by decide) (by decide)⟩
  have hch : ∀ f, initTimestamps 1000 f chain = none := by
    intro f
    cases f with
    | zero => rfl
    | succ f =>
      show (List.range 1).foldlM (fun c j => update 1000 f c ((0 + (j + 1)) % 65536)) chain = none
      show (update 1000 f chain 1).bind some = none
      rw [(chain_loops 1000 f).1]; rfl
  refine ⟨fun h => ?_, hf, ?_, ?_, hch⟩
  · obtain ⟨f0, h⟩ := h chain 1000 (by decide) (hf chain (by simp)).1 (hf chain (by simp)).2 (by norm_num)
      (by norm_num)
    obtain ⟨c', e, _⟩ := h f0 le_rfl
    rw [hch] at e; cases e
  · intro f hf
    obtain ⟨f, rfl⟩ : ∃ g, f = g + 3 := ⟨f - 3, by omega⟩
    rfl
  · intro f hf
    obtain ⟨f, rfl⟩ : ∃ g, f = g + 3 := ⟨f - 3, by omega⟩
    rfl

/-- A fact with its two times and a chain: `[fact hd 4] →5 →8 →11 nil`. -/
def fact : Code := [0xC3000104, 0x84000005, 0x84000008, 0x8400000B, 0x80000000,
  timestamp, 0, 5, timestamp, 0xFFFFFFFF, 0xFFFFFFF0, 0xC0000002, 0x90000000, 0x91000000]

/-- The hypotheses of `C69_times_partial` are met by a fact, whose times are both moved. -/
theorem C69_nonvacuous :
    fact.length ≤ 65536 ∧ Fine fact 0 ∧ Apart fact ∧ Time fact 5 ∧ Time fact 8 ∧ Plain fact ∧ Single fact ∧
    initTimestamps 1000 9 fact = some [0xC3000104, 0x84000005, 0x84000008, 0x8400000B, 0x80000000,
      timestamp, 0, 1005, timestamp, 0, 984, 0xC0000002, 0x90000000, 0x91000000] := by
  have hb : fineB fact 4 0 = true := by decide
  refine ⟨by decide, fineB_fine 4 0 hb, apartB_apart (f := 4) hb (by decide), ?_, ?_, ?_, ?_, by rfl⟩
  · exact ⟨⟨[1, 5], .cons (.member (w := 0xC3000104) (j := 1) rfl (by decide) (by decide) (by decide))
      (.cons (.ptr (w := 0x84000005) rfl (.inl (by decide))) .nil)⟩, _, rfl, by decide, by decide⟩
  · exact ⟨⟨[2, 8], .cons (.member (w := 0xC3000104) (j := 2) rfl (by decide) (by decide) (by decide))
      (.cons (.ptr (w := 0x84000008) rfl (.inl (by decide))) .nil)⟩, _, rfl, by decide, by decide⟩
  · intro i w hr hw
    have hi := reach_words hb hr
    have hall : ∀ i ∈ words fact 4, ∀ w, fact[i]? = some w →
        (getDescriptor w = 0xC7 → w = timestamp) ∧
        getDescriptor w ∉ ([0x8D, 0xC9, 0xCA, 0xCB, 0xCC, 0xCD, 0xCE] : List (BitVec 8)) ∧
        (getDescriptor w = 0xC0 → i = 11 ∧ (getAtomCount w).toNat = 2) := by
      have : words fact 4 = [0, 1, 5, 2, 8, 3, 11, 12, 4] := by decide
      rw [this]
      intro i hi w hw
      simp only [List.mem_cons, List.not_mem_nil, or_false] at hi
      rcases hi with rfl | rfl | rfl | rfl | rfl | rfl | rfl | rfl | rfl <;>
        (cases hw; decide)
    obtain ⟨h1, h2, h3⟩ := hall i hi w hw
    refine ⟨h1, h2, fun j v hc hj hj' hv => ?_⟩
    obtain ⟨rfl, hn⟩ := h3 hc
    obtain rfl : j = 2 := by omega
    cases hv
    decide
  · intro t l l' ht hl hl'
    have h1 := mem_paths 4 0 l t hb hl
    have h2 := mem_paths 4 0 l' t hb hl'
    have hall : ∀ p ∈ paths fact 4 0, ∀ p' ∈ paths fact 4 0, p.2 = p'.2 → p.1 = p'.1 := by decide
    exact hall _ h1 _ h2 rfl

end Verif.LoadTimes
