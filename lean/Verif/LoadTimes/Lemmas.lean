import Verif.LoadTimes.Model
import Verif.Words.Lemmas
import Mathlib.Data.List.Basic
import Mathlib.Order.Basic
/-!
# What it means that the times of an object are moved (C69), and one visit of a word
-/
namespace Verif.LoadTimes
set_option linter.dupNamespace false
open Verif.Atom Verif.Words

/-- The code words of an object: pointers lead to code, the members of a structure are code. Of a chain only
the first word is code, the others are positions within the object it designates
(r_exec/context.cpp:200-223). -/
inductive Edge (c : Code) : Nat → Nat → Prop
  | ptr {i w} : c[i]? = some w → getDescriptor w = 0x84 ∨ getDescriptor w = 0x8D → Edge c i (asIndex w).toNat
  | chain {i w} : c[i]? = some w → getDescriptor w = 0xC0 → 1 ≤ (getAtomCount w).toNat → Edge c i (i + 1)
  | member {i w j} : c[i]? = some w →
      getDescriptor w ∈ ([0xC1, 0xC2, 0xC3, 0xC4, 0xC5, 0xC8, 0xC9, 0xCA, 0xCB, 0xCC, 0xCD, 0xCE] :
        List (BitVec 8)) →
      1 ≤ j → j ≤ (getAtomCount w).toNat → Edge c i (i + j)

/-- A way from word `i` to word `t`: the words on it, `t` last. -/
inductive Path (c : Code) : Nat → List Nat → Nat → Prop
  | nil {i} : Path c i [] i
  | cons {i k l t} : Edge c i k → Path c k l t → Path c i (k :: l) t

/-- Word `k` belongs to the object. -/
def Reach (c : Code) (k : Nat) : Prop := ∃ l, Path c 0 l k

/-- A time of the object: two words follow that hold the value. The undefined time (`|us`) is not one: its two
words hold no value, only ones (r_comp/compiler.cpp:2441-2453). -/
def Time (c : Code) (t : Nat) : Prop :=
  Reach c t ∧ ∃ w, c[t]? = some w ∧ getDescriptor w = 0xC7 ∧ w ≠ undefinedTimestamp

/-- Later by `ref`, but not beyond the greatest time. -/
def later (ref : Int) (v : BitVec 64) : BitVec 64 := BitVec.ofInt 64 (min (v.toInt + ref) (2 ^ 63 - 1))

/-- Every time is moved once, nothing else changes. -/
def Moved (ref : Int) (c c' : Code) : Prop :=
  c'.length = c.length ∧
  (∀ t, Time c t → getInt64 c' (t + 1) = (getInt64 c (t + 1)).map (later ref)) ∧
  (∀ p, (∀ t, Time c t → p ≠ t + 1 ∧ p ≠ t + 2) → c'[p]? = c[p]?)

/-- The code is well-formed: every word is in it, and so are the values of times and the positions of chains;
no word contains itself. -/
inductive Fine (c : Code) : Nat → Prop
  | mk {i w} : c[i]? = some w →
      (getDescriptor w = 0xC7 → i + 2 < c.length) →
      (getDescriptor w = 0xC0 → i + (getAtomCount w).toNat < c.length) →
      (∀ k, Edge c i k → Fine c k) → Fine c i

/-- The values of times are not code, nor positions of chains. -/
def Apart (c : Code) : Prop :=
  ∀ t, Time c t → ∀ p, p = t + 1 ∨ p = t + 2 → ¬ Reach c p ∧
    ∀ i w j, Reach c i → c[i]? = some w → getDescriptor w = 0xC0 → j ≤ (getAtomCount w).toNat → p ≠ i + j

/-! ### Proof of the part that holds -/

theorem shift_later {ref : Int} (h0 : 0 ≤ ref) (v : BitVec 64) : shift ref v = later ref v := by
  unfold shift later Upr.maxTime
  split <;> congr 1 <;> omega

/-- The object has no undefined time, no program, model or composite state at its head, no assignment, and
the positions of its chains do not look like code. -/
def Plain (c : Code) : Prop :=
  ∀ i w, Reach c i → c[i]? = some w →
    (getDescriptor w = 0xC7 → w = timestamp) ∧
    getDescriptor w ∉ ([0x8D, 0xC9, 0xCA, 0xCB, 0xCC, 0xCD, 0xCE] : List (BitVec 8)) ∧
    ∀ j v, getDescriptor w = 0xC0 → 2 ≤ j → j ≤ (getAtomCount w).toNat → c[i + j]? = some v →
      getDescriptor v ≠ 0xC7 ∧ getDescriptor v ≠ 0x84 ∧ walked (getDescriptor v) = false

/-- No time is reached in two ways. -/
def Single (c : Code) : Prop := ∀ t l l', Time c t → Path c 0 l t → Path c 0 l' t → l = l'

theorem Path.append {c : Code} {i l k l' t} (h : Path c i l k) (h' : Path c k l' t) : Path c i (l ++ l') t := by
  induction h with
  | nil => exact h'
  | cons e _ ih => exact .cons e (ih h')

theorem Reach.edge {c : Code} {i k : Nat} (h : Reach c i) (e : Edge c i k) : Reach c k := by
  obtain ⟨l, hl⟩ := h
  exact ⟨l ++ [k], hl.append (.cons e .nil)⟩

/-- The state when the times in `D` have been moved. -/
def State (ref : Int) (c : Code) (D : Nat → Prop) (s : Code) : Prop :=
  s.length = c.length ∧
  (∀ t, Time c t → D t → getInt64 s (t + 1) = (getInt64 c (t + 1)).map (later ref)) ∧
  (∀ p, (∀ t, Time c t → D t → p ≠ t + 1 ∧ p ≠ t + 2) → s[p]? = c[p]?)

theorem State.congr {ref : Int} {c : Code} {D D' : Nat → Prop} {s : Code}
    (h : ∀ t, Time c t → (D t ↔ D' t)) (hs : State ref c D s) : State ref c D' s :=
  ⟨hs.1, fun t ht hd => hs.2.1 t ht ((h t ht).2 hd),
    fun p hp => hs.2.2 p fun t ht hd => hp t ht ((h t ht).1 hd)⟩

/-- The times that can be reached from `i`. -/
def From (c : Code) (i t : Nat) : Prop := ∃ l, Path c i l t

theorem getInt64_congr {c c' : Code} {i : Nat} (h1 : c[i]? = c'[i]?) (h2 : c[i + 1]? = c'[i + 1]?) :
    getInt64 c i = getInt64 c' i := by
  unfold getInt64 Words.get
  rw [h1, h2]

theorem getInt64_isSome {c : Code} {i : Nat} (h : i + 1 < c.length) : ∃ v, getInt64 c i = some v := by
  unfold getInt64 Words.get
  rw [List.getElem?_eq_getElem h, List.getElem?_eq_getElem (by omega : i < c.length)]
  exact ⟨_, rfl⟩

theorem foldlM_state {α σ : Type} (step : σ → Nat → Option σ) (I : Nat → σ → Prop) (n : Nat) (s : σ)
    (h0 : I 0 s) (h : ∀ j s, j < n → I j s → ∃ s', step s j = some s' ∧ I (j + 1) s') (_ : α) :
    ∃ s', (List.range n).foldlM step s = some s' ∧ I n s' := by
  induction n with
  | zero => exact ⟨s, rfl, h0⟩
  | succ n ih =>
    obtain ⟨s1, e1, h1⟩ := ih (fun j s hj => h j s (by omega))
    obtain ⟨s2, e2, h2⟩ := h n s1 (by omega) h1
    refine ⟨s2, ?_, h2⟩
    rw [List.range_succ, List.foldlM_append, e1]
    simp [e2]

theorem uniform {P : Nat → Nat → Prop} : ∀ n, (∀ j, j < n → ∃ f0, ∀ f, f0 ≤ f → P j f) →
    ∃ F, ∀ j, j < n → ∀ f, F ≤ f → P j f
  | 0, _ => ⟨0, fun j hj => by omega⟩
  | n + 1, h => by
    obtain ⟨F, hF⟩ := uniform n (fun j hj => h j (by omega))
    obtain ⟨f0, h0⟩ := h n (by omega)
    refine ⟨max F f0, fun j hj f hf => ?_⟩
    by_cases e : j = n
    · subst e; exact h0 f (by omega)
    · exact hF j (by omega) f (by omega)

/-- What a visit of word `i` does. -/
def Visits (ref : Int) (c : Code) (i : Nat) (f : Nat) : Prop :=
  ∀ (D : Nat → Prop) (s : Code), (∀ t, Time c t → D t → ¬ From c i t) → State ref c D s →
    ∃ s', update ref f s i = some s' ∧ State ref c (fun t => D t ∨ From c i t) s'

set_option maxHeartbeats 2000000 in
theorem visit {ref : Int} (h0 : 0 ≤ ref) {c : Code} (hlen : c.length ≤ 65536) (hap : Apart c) (hpl : Plain c)
    (hsg : Single c) {i : Nat} (hf : Fine c i) (hr : Reach c i) :
    ∃ f0, ∀ f, f0 ≤ f → Visits ref c i f := by
  induction hf with
  | @mk i w hw htime hchain hk ih =>
    have ih' : ∀ k, Edge c i k → ∃ f0, ∀ f, f0 ≤ f → Visits ref c k f := fun k e => ih k e (hr.edge e)
    -- a code word is as it was
    have hsame : ∀ D s p, State ref c D s → Reach c p → s[p]? = c[p]? := by
      intro D s p hs hp
      refine hs.2.2 p fun t ht _ => ⟨?_, ?_⟩
      · intro e; exact (hap t ht p (.inl e)).1 hp
      · intro e; exact (hap t ht p (.inr e)).1 hp
    obtain ⟨hp1, hp2, hp3⟩ := hpl i w hr hw
    have hinj : ∀ {w'}, c[i]? = some w' → w' = w := by
      intro w' h; rw [hw] at h; exact (Option.some.inj h).symm
    by_cases hC7 : getDescriptor w = 0xC7
    · -- a time
      have hwt := hp1 hC7
      have hnu : w ≠ undefinedTimestamp := by rw [hwt]; decide
      have hT : Time c i := ⟨hr, w, hw, hC7, hnu⟩
      have hroom := htime hC7
      have hleaf : ∀ t, From c i t ↔ t = i := by
        intro t
        constructor
        · rintro ⟨l, hl⟩
          cases hl with
          | nil => rfl
          | cons e _ =>
            cases e with
            | ptr hw' hd => rw [hinj hw', hC7] at hd; exact absurd hd (by decide)
            | chain hw' hd => rw [hinj hw', hC7] at hd; exact absurd hd (by decide)
            | member hw' hd => rw [hinj hw', hC7] at hd; exact absurd hd (by decide)
        · rintro rfl; exact ⟨[], .nil⟩
      refine ⟨1, fun f hf D s hD hs => ?_⟩
      obtain ⟨f, rfl⟩ : ∃ g, f = g + 1 := ⟨f - 1, by omega⟩
      have hsw : s[i]? = some w := by rw [hsame D s i hs hr, hw]
      have hni : ¬ D i := fun hd => hD i hT hd ⟨[], .nil⟩
      -- the value is as it was
      have hval : ∀ p, p = i + 1 ∨ p = i + 2 → s[p]? = c[p]? := by
        intro p hp
        refine hs.2.2 p fun t ht hd => ?_
        have hti : t ≠ i := fun e => hni (e ▸ hd)
        have h1 := (hap i hT t)
        have h2 := (hap t ht i)
        refine ⟨fun e => ?_, fun e => ?_⟩
        · rcases hp with rfl | rfl
          · omega
          · exact (h1 (.inl (by omega))).1 ht.1
        · rcases hp with rfl | rfl
          · exact (h2 (.inl (by omega))).1 hr
          · omega
      have hgs : getInt64 s (i + 1) = getInt64 c (i + 1) :=
        getInt64_congr (hval _ (.inl rfl)) (hval _ (.inr rfl))
      obtain ⟨v, hv⟩ := getInt64_isSome (c := c) (i := i + 1) (by omega)
      have hset : s.set i timestamp = s := by
        apply List.ext_getElem?
        intro p
        by_cases e : i = p
        · subst e
          have : i < s.length := by rw [hs.1]; omega
          rw [List.getElem?_set_self this, hsw, hwt]
        · rw [List.getElem?_set_ne e]
      obtain ⟨s', hs'⟩ := setInt64_isSome s (i + 1) (shift ref v) (by rw [hs.1]; omega)
      obtain ⟨k1, k2, k3, k4⟩ := setInt64_spec hs'
      refine ⟨s', ?_, ?_⟩
      · rw [update, hsw]
        dsimp only
        rw [if_pos hC7, hgs, hv]
        show setTimestampAt s i (shift ref v) = some s'
        rw [setTimestampAt, hset, hs']
      · refine State.congr (D := fun t => D t ∨ t = i) (fun t _ => by rw [hleaf]) ⟨by rw [k1, hs.1], ?_, ?_⟩
        · intro t ht hd
          by_cases e : t = i
          · subst e
            rw [getInt64_of k2 k3, hv, shift_later h0]; rfl
          · have hd : D t := by rcases hd with hd | hd; exact hd; exact absurd hd e
            rw [← hs.2.1 t ht hd]
            have h1 := (hap i hT t)
            have h2 := (hap t ht i)
            refine getInt64_congr (k4 _ (by omega) ?_) (k4 _ ?_ (by omega))
            · intro e'; exact (h1 (.inl (by omega))).1 ht.1
            · intro e'; exact (h2 (.inl (by omega))).1 hr
        · intro p hp
          have := hp i hT (.inr rfl)
          rw [k4 p (by omega) (by omega)]
          exact hs.2.2 p fun t ht hd => hp t ht (.inl hd)
    by_cases h84 : getDescriptor w = 0x84
    · -- a pointer
      have he : Edge c i (asIndex w).toNat := .ptr hw (.inl h84)
      obtain ⟨f0, hf0⟩ := ih' _ he
      have hfrom : ∀ t, Time c t → (From c i t ↔ From c (asIndex w).toNat t) := by
        intro t ht
        constructor
        · rintro ⟨l, hl⟩
          cases hl with
          | nil =>
            obtain ⟨_, w', hw', hd', _⟩ := ht
            rw [hinj hw', h84] at hd'; exact absurd hd' (by decide)
          | @cons _ k l _ e h =>
            cases e with
            | ptr hw' _ => rw [hinj hw'] at h; exact ⟨l, h⟩
            | chain hw' hd => rw [hinj hw', h84] at hd; exact absurd hd (by decide)
            | member hw' hd => rw [hinj hw', h84] at hd; exact absurd hd (by decide)
        · rintro ⟨l, hl⟩; exact ⟨_ :: l, .cons he hl⟩
      refine ⟨f0 + 1, fun f hf D s hD hs => ?_⟩
      obtain ⟨f, rfl⟩ : ∃ g, f = g + 1 := ⟨f - 1, by omega⟩
      obtain ⟨s', e', hs'⟩ := hf0 f (by omega) D s (fun t ht hd => by rw [← hfrom t ht]; exact hD t ht hd) hs
      refine ⟨s', ?_, hs'.congr fun t ht => by rw [hfrom t ht]⟩
      rw [update, hsame D s i hs hr, hw]
      dsimp only
      rw [if_neg hC7, if_pos h84, e']
    by_cases hwk : walked (getDescriptor w) = true
    · -- a structure or chain
      have hedge : ∀ j, 1 ≤ j → j ≤ (getAtomCount w).toNat → (getDescriptor w = 0xC0 → j = 1) →
          Edge c i (i + j) := by
        intro j h1 h2 h3
        by_cases hc : getDescriptor w = 0xC0
        · rw [h3 hc]; exact .chain hw hc (by omega)
        · refine .member hw ?_ h1 h2
          simp only [walked, Bool.or_eq_true, decide_eq_true_eq] at hwk
          simp only [List.mem_cons, List.not_mem_nil, or_false]
          tauto
      have hedge' : ∀ k, Edge c i k → ∃ j, 1 ≤ j ∧ j ≤ (getAtomCount w).toNat ∧ k = i + j ∧
          (getDescriptor w = 0xC0 → j = 1) := by
        intro k e
        cases e with
        | ptr hw' hd =>
          rw [hinj hw'] at hd
          rcases hd with hd | hd
          · exact absurd hd h84
          · rw [hd] at hwk; exact absurd hwk (by decide)
        | chain hw' hd hc => rw [hinj hw'] at hc; exact ⟨1, by omega, hc, rfl, fun _ => rfl⟩
        | @member _ j hw' hd h1 h2 =>
          rw [hinj hw'] at hd h2
          refine ⟨_, h1, h2, rfl, fun h => ?_⟩
          rw [h] at hd; exact absurd hd (by decide)
      obtain ⟨F, hF⟩ := uniform (P := fun j f => (getDescriptor w = 0xC0 → j = 0) → Visits ref c (i + (j + 1)) f)
        (getAtomCount w).toNat (by
          intro j hj
          by_cases h : getDescriptor w = 0xC0 → j = 0
          · obtain ⟨f0, h0⟩ := ih' _ (hedge (j + 1) (by omega) (by omega) (fun e => by rw [h e]))
            exact ⟨f0, fun f hf _ => h0 f hf⟩
          · exact ⟨0, fun f _ h' => absurd h' h⟩)
      refine ⟨F + 2, fun f hf D s hD hs => ?_⟩
      obtain ⟨f, rfl⟩ : ∃ g, f = g + 2 := ⟨f - 2, by omega⟩
      have hfromi : ∀ t, Time c t → (From c i t ↔ ∃ k, Edge c i k ∧ From c k t) := by
        intro t ht
        constructor
        · rintro ⟨l, hl⟩
          cases hl with
          | nil =>
            obtain ⟨_, w', hw', hd', _⟩ := ht
            rw [hinj hw'] at hd'; exact absurd hd' hC7
          | cons e h => exact ⟨_, e, _, h⟩
        · rintro ⟨k, e, l, hl⟩; exact ⟨_, .cons e hl⟩
      have hdisj : ∀ t k k', Time c t → Edge c i k → Edge c i k' → From c k t → From c k' t → k = k' := by
        rintro t k k' ht e e' ⟨l, hl⟩ ⟨l', hl'⟩
        obtain ⟨l0, hl0⟩ := hr
        have := hsg t _ _ ht (hl0.append (.cons e hl)) (hl0.append (.cons e' hl'))
        have := List.append_cancel_left this
        exact (List.cons.inj this).1
      obtain ⟨s', e', hs'⟩ := foldlM_state (α := Unit)
        (fun s j => update ref (f + 1) s ((i + (j + 1)) % 65536))
        (fun m s => State ref c (fun t => D t ∨ ∃ j, j < m ∧ Edge c i (i + (j + 1)) ∧ From c (i + (j + 1)) t) s)
        (getAtomCount w).toNat s (hs.congr fun t _ => by simp) (by
          intro j s hj hs
          by_cases h : getDescriptor w = 0xC0 → j = 0
          · have he := hedge (j + 1) (by omega) (by omega) (fun e => by rw [h e])
            have hin : i + (j + 1) < c.length := by
              cases hk _ he with
              | mk hw' _ _ _ => exact (List.getElem?_eq_some_iff.1 hw').1
            rw [Nat.mod_eq_of_lt (by omega)]
            obtain ⟨s', e', hs'⟩ := hF j hj (f + 1) (by omega) h _ s (by
              rintro t ht (hd | ⟨j', hj', hej', hfj'⟩) hft
              · exact hD t ht hd ((hfromi t ht).2 ⟨_, he, hft⟩)
              · have := hdisj t _ _ ht he hej' hft hfj'
                omega) hs
            refine ⟨s', e', hs'.congr fun t ht => ?_⟩
            constructor
            · rintro ((hd | ⟨j', hj', hej', hfj'⟩) | hft)
              · exact .inl hd
              · exact .inr ⟨j', by omega, hej', hfj'⟩
              · exact .inr ⟨j, by omega, he, hft⟩
            · rintro (hd | ⟨j', hj', hej', hfj'⟩)
              · exact .inl (.inl hd)
              · by_cases e : j' = j
                · subst e; exact .inr hfj'
                · exact .inl (.inr ⟨j', by omega, hej', hfj'⟩)
          · -- a position of a chain
            have hc : getDescriptor w = 0xC0 ∧ j ≠ 0 := by
              by_contra hcon; exact h fun e => by_contra fun e' => hcon ⟨e, e'⟩
            obtain ⟨hc, hj0⟩ := hc
            have hin : i + (j + 1) < c.length := by have := hchain hc; omega
            have hv : c[i + (j + 1)]? = some c[i + (j + 1)] := List.getElem?_eq_getElem hin
            obtain ⟨q1, q2, q3⟩ := hp3 (j + 1) _ hc (by omega) (by omega) hv
            have hsv : s[i + (j + 1)]? = some c[i + (j + 1)] := by
              rw [← hv]
              refine hs.2.2 _ fun t ht _ => ⟨fun e => ?_, fun e => ?_⟩
              · exact (hap t ht _ (.inl rfl)).2 i w (j + 1) hr hw hc (by omega) e.symm
              · exact (hap t ht _ (.inr rfl)).2 i w (j + 1) hr hw hc (by omega) e.symm
            refine ⟨s, ?_, hs.congr fun t ht => ?_⟩
            · rw [Nat.mod_eq_of_lt (by omega), update, hsv]
              dsimp only
              rw [if_neg q1, if_neg q2, q3]
              rfl
            · constructor
              · rintro (hd | ⟨j', hj', hej', hfj'⟩)
                · exact .inl hd
                · exact .inr ⟨j', by omega, hej', hfj'⟩
              · rintro (hd | ⟨j', hj', hej', hfj'⟩)
                · exact .inl hd
                · obtain ⟨j'', _, _, h3, h4⟩ := hedge' _ hej'
                  have := h4 hc
                  exact .inr ⟨j', by omega, hej', hfj'⟩) ()
      refine ⟨s', ?_, hs'.congr fun t ht => ?_⟩
      · rw [update, hsame D s i hs hr, hw]
        dsimp only
        rw [if_neg hC7, if_neg h84, if_pos hwk, e']
      · rw [hfromi t ht]
        constructor
        · rintro (hd | ⟨j', hj', hej', hfj'⟩)
          · exact .inl hd
          · exact .inr ⟨_, hej', hfj'⟩
        · rintro (hd | ⟨k, he, hfk⟩)
          · exact .inl hd
          · obtain ⟨j, h1, h2, rfl, _⟩ := hedge' k he
            obtain ⟨j, rfl⟩ : ∃ g, j = g + 1 := ⟨j - 1, by omega⟩
            exact .inr ⟨j, by omega, he, hfk⟩
    · -- anything else
      refine ⟨1, fun f hf D s hD hs => ⟨s, ?_, hs.congr fun t ht => ?_⟩⟩
      · obtain ⟨f, rfl⟩ : ∃ g, f = g + 1 := ⟨f - 1, by omega⟩
        rw [update, hsame D s i hs hr, hw]
        dsimp only
        rw [if_neg hC7, if_neg h84, if_neg hwk]
      · refine ⟨.inl, ?_⟩
        rintro (hd | ⟨l, hl⟩)
        · exact hd
        · exfalso
          cases hl with
          | nil =>
            obtain ⟨_, w', hw', hd', _⟩ := ht
            rw [hinj hw'] at hd'; exact hC7 hd'
          | cons e _ =>
            cases e with
            | ptr hw' hd =>
              rw [hinj hw'] at hd
              rcases hd with hd | hd
              · exact h84 hd
              · exact hp2 (by rw [hd]; decide)
            | chain hw' hd => rw [hinj hw'] at hd; rw [hd] at hwk; exact hwk (by decide)
            | member hw' hd =>
              rw [hinj hw'] at hd
              simp only [List.mem_cons, List.not_mem_nil, or_false] at hd hp2
              simp only [walked, Bool.or_eq_true, decide_eq_true_eq] at hwk
              tauto

end Verif.LoadTimes
