import Verif.Commit.Lemmas
import Verif.Abduce.Props
/-!
# C124 to C126
-/
namespace Verif.Commit
open Verif.F32 (Arith)
open Verif.Abduce (Mode)

section
variable {A : Arith} {now : Int} {mine : Tgt} {W : Nat → SimD} {me : Nat} {h : List Outcome} {inv : Nat → Bool}

theorem cave_iff (hs : Single h) :
    (gather W me h).mustFail.any (fun p => alive inv p && harms A now mine p.1) = true ↔
      ∃ s, (W s).mode = .mandatory ∧ Harm A now mine W me h inv s := by
  rw [(gather_lists W me h).2.2.1, List.any_eq_true]
  constructor
  · rintro ⟨⟨x, s⟩, hp, hc⟩
    obtain ⟨h1, h2, h3⟩ := (pick_iff hs _ _ _ _).mp hp
    rw [Bool.and_eq_true, alive_iff h1.2.2.1, harms_iff] at hc
    obtain ⟨hl, t, ht, hst⟩ := hc
    exact ⟨s, h3, x, t, h1, h2, hl, ht, hst⟩
  · rintro ⟨s, h3, x, t, h1, h2, hl, ht, hst⟩
    refine ⟨(x, s), (pick_iff hs _ _ _ _).mpr ⟨h1, h2, h3⟩, ?_⟩
    rw [Bool.and_eq_true, alive_iff h1.2.2.1, harms_iff]
    exact ⟨hl, t, ht, hst⟩

theorem dropped_iff (hs : Single h) (s : Nat) :
    dropHarmful A now mine (gather W me h).mayFail inv s = true ↔ inv s = true ∨
      ((W s).mode = .optional ∧ Harm A now mine W me h inv s) := by
  rw [(gather_lists W me h).2.2.2, drop_iff]
  · constructor
    · rintro (hi | ⟨⟨x, u⟩, hp, rfl, hd, hh⟩)
      · exact Or.inl hi
      · obtain ⟨h1, h2, h3⟩ := (pick_iff hs _ _ _ _).mp hp
        obtain ⟨t, ht, hst⟩ := harms_iff.mp hh
        by_cases hi : inv u = true
        · exact Or.inl hi
        · exact Or.inr ⟨h3, x, t, h1, h2, ⟨hd, Bool.eq_false_iff.mpr hi⟩, ht, hst⟩
    · rintro (hi | ⟨h3, x, t, h1, h2, hl, ht, hst⟩)
      · exact Or.inl hi
      · exact Or.inr ⟨(x, s), (pick_iff hs _ _ _ _).mpr ⟨h1, h2, h3⟩, rfl, hl.1, harms_iff.mpr ⟨t, ht, hst⟩⟩
  · rintro ⟨x, u⟩ hp
    exact ((pick_iff hs _ _ _ _).mp hp).1.2.2.1

theorem listed_iff (hs : Single h) (s : Nat) :
    (∃ p, (p ∈ (gather W me h).mustFail ∨ p ∈ (gather W me h).mayFail ∨ p ∈ (gather W me h).must ∨
      p ∈ (gather W me h).may) ∧ p.2 = s) ↔ (W s).mode ≠ .root ∧ ∃ x, Seen W me h x s := by
  obtain ⟨g1, g2, g3, g4⟩ := gather_lists W me h
  rw [g1, g2, g3, g4]
  constructor
  · rintro ⟨⟨x, u⟩, hp, rfl⟩
    simp only [pick_iff hs] at hp
    rcases hp with ⟨h1, _, h3⟩ | ⟨h1, _, h3⟩ | ⟨h1, _, h3⟩ | ⟨h1, _, h3⟩ <;>
      exact ⟨by rw [h3]; simp, x, h1⟩
  · rintro ⟨hm, x, hx⟩
    refine ⟨(x, s), ?_, rfl⟩
    simp only [pick_iff hs]
    cases hk : x.success <;> cases hw : (W s).mode <;> simp_all

/-- What `commit` comes to. -/
theorem commit_cases (hs : Single h) :
    ((∃ s, (W s).mode = .mandatory ∧ Harm A now mine W me h inv s) →
      commit A now W mine (gather W me h) inv = (stopAll (gather W me h) inv, [])) ∧
    (¬ (∃ s, (W s).mode = .mandatory ∧ Harm A now mine W me h inv s) →
      ((∀ x s, Helps W me h inv x s → (W s).mode = .optional → Harm A now mine W me h inv s) ∧
        (commit A now W mine (gather W me h) inv).2 = []) ∨
      ∃ x s, Helps W me h inv x s ∧ (W s).mode = .optional ∧ ¬ Harm A now mine W me h inv s ∧
        (∀ y u, Helps W me h inv y u → (W u).mode = .optional → ¬ Harm A now mine W me h inv u →
          ((W u).rank A now).gt ((W s).rank A now) = false) ∧
        (commit A now W mine (gather W me h) inv).2 =
          call W mine (x, s) :: (gather W me h).must.map (call W mine)) := by
  unfold commit
  refine ⟨fun hc => by rw [if_pos ((cave_iff hs).mpr hc)], ?_⟩
  intro hc
  rw [if_neg (fun hh => hc ((cave_iff hs).mp hh))]
  dsimp only
  have hb := best_spec A now W (dropHarmful A now mine (gather W me h).mayFail inv) (gather W me h).may
  have key : ∀ x s, (x, s) ∈ (gather W me h).may →
      (alive (dropHarmful A now mine (gather W me h).mayFail inv) (x, s) = true ↔
        Live inv x s ∧ ¬ Harm A now mine W me h inv s) := by
    intro x s hp
    rw [(gather_lists W me h).2.1] at hp
    obtain ⟨h1, h2, h3⟩ := (pick_iff hs _ _ _ _).mp hp
    rw [alive_iff h1.2.2.1]
    unfold Live
    have hd := dropped_iff (A := A) (now := now) (mine := mine) (W := W) (me := me) (inv := inv) hs s
    rw [← Bool.not_eq_true (dropHarmful _ _ _ _ _ _), hd]
    constructor
    · rintro ⟨hx, hn⟩
      exact ⟨⟨hx, by by_contra hi; exact hn (Or.inl (by simpa using hi))⟩, fun hh => hn (Or.inr ⟨h3, hh⟩)⟩
    · rintro ⟨⟨hx, hi⟩, hn⟩
      refine ⟨hx, ?_⟩
      rintro (hh | hh)
      · rw [hi] at hh; cases hh
      · exact hn hh.2
  cases hbe : best A now W (dropHarmful A now mine (gather W me h).mayFail inv) (gather W me h).may with
  | none =>
    refine Or.inl ⟨?_, rfl⟩
    intro x s hx hm
    by_contra hn
    have hp : (x, s) ∈ (gather W me h).may := by
      rw [(gather_lists W me h).2.1]; exact (pick_iff hs _ _ _ _).mpr ⟨hx.1, hx.2.1, hm⟩
    have := hb.1 hbe (x, s) hp
    rw [(key x s hp).mpr ⟨hx.2.2, hn⟩] at this
    cases this
  | some b =>
    obtain ⟨x, s⟩ := b
    obtain ⟨h1, h2, h3⟩ := hb.2 (x, s) hbe
    have h1' := h1
    rw [(gather_lists W me h).2.1] at h1'
    obtain ⟨k1, k2, k3⟩ := (pick_iff hs _ _ _ _).mp h1'
    obtain ⟨k4, k5⟩ := (key x s h1).mp h2
    refine Or.inr ⟨x, s, ⟨k1, k2, k4⟩, k3, k5, ?_, rfl⟩
    intro y u hy hm hn
    have hp : (y, u) ∈ (gather W me h).may := by
      rw [(gather_lists W me h).2.1]; exact (pick_iff hs _ _ _ _).mpr ⟨hy.1, hy.2.1, hm⟩
    exact h3 (y, u) hp ((key y u hp).mpr ⟨hy.2.2, hn⟩)

theorem commit_inv (hs : Single h) (s : Nat) :
    (commit A now W mine (gather W me h) inv).1 s = true ↔ inv s = true ∨ ((W s).mode ≠ .root ∧ ∃ x, Seen W me h x s) := by
  unfold commit
  by_cases hc : (gather W me h).mustFail.any (fun p => alive inv p && harms A now mine p.1) = true
  · rw [if_pos hc]
    dsimp only
    rw [stopAll_iff, listed_iff hs]
  · rw [if_neg hc]
    dsimp only
    have : ∀ i, (stopAll (gather W me h) (dropHarmful A now mine (gather W me h).mayFail inv) s = true ↔ i) →
        ((match best A now W (dropHarmful A now mine (gather W me h).mayFail inv) (gather W me h).may with
          | none => (stopAll (gather W me h) (dropHarmful A now mine (gather W me h).mayFail inv), [])
          | some b => (stopAll (gather W me h) (dropHarmful A now mine (gather W me h).mayFail inv),
              call W mine b :: (gather W me h).must.map (call W mine))).1 s = true ↔ i) := by
      intro i hi
      cases best A now W (dropHarmful A now mine (gather W me h).mayFail inv) (gather W me h).may <;> exact hi
    refine this _ ?_
    rw [stopAll_iff, listed_iff hs, dropped_iff hs]
    constructor
    · rintro ((hi | ⟨hm, hh⟩) | hi)
      · exact Or.inl hi
      · obtain ⟨x, _, hx, _⟩ := hh
        exact Or.inr ⟨by rw [hm]; simp, x, hx⟩
      · exact Or.inr hi
    · rintro (hi | hi)
      · exact Or.inl (Or.inl hi)
      · exact Or.inr hi

end

/-- C124 in part. Missing: what must be done is only committed to if something may be done, then also if it has been
withdrawn, and as often as it was seen to succeed; see `C124_commit_violated`. -/
theorem C124_commit_partial : ∀ A now mine W me h inv, Single h →
    let calls := (commit A now W mine (gather W me h) inv).2
    let inv' := (commit A now W mine (gather W me h) inv).1
    ((∃ s, (W s).mode = .mandatory ∧ Harm A now mine W me h inv s) → calls = []) ∧
    (∀ c ∈ calls, For W mine c ∧ ¬ Harm A now mine W me h inv c.sim ∧
      ∃ x, Seen W me h x c.sim ∧ x.success = true ∧ x.id = c.fact ∧ ((W c.sim).mode = .optional → Live inv x c.sim)) ∧
    (¬ (∃ s, (W s).mode = .mandatory ∧ Harm A now mine W me h inv s) →
      ∀ x s, Helps W me h inv x s → (W s).mode = .optional → ¬ Harm A now mine W me h inv s →
        (∃ c ∈ calls, (W c.sim).mode = .optional ∧ ((W s).rank A now).gt ((W c.sim).rank A now) = false) ∧
        ∀ y u, Helps W me h inv y u → (W u).mode = .mandatory → ∃ c ∈ calls, c.sim = u) ∧
    (calls.filter (fun c => (W c.sim).mode == .optional)).length ≤ 1 ∧
    (∀ x s, Seen W me h x s → (W s).mode ≠ .root → inv' s = true) ∧
    ∀ s, (∀ x, ¬ Seen W me h x s) → inv' s = inv s := by
  intro A now mine W me h inv hs calls inv'
  obtain ⟨c1, c2⟩ := commit_cases (A := A) (now := now) (mine := mine) (W := W) (me := me) (inv := inv) hs
  have hmust : ∀ c ∈ (gather W me h).must.map (call W mine), For W mine c ∧ (W c.sim).mode = .mandatory ∧
      ∃ x, Seen W me h x c.sim ∧ x.success = true ∧ x.id = c.fact := by
    intro c hc
    obtain ⟨⟨x, s⟩, hp, rfl⟩ := List.mem_map.mp hc
    rw [(gather_lists W me h).1] at hp
    obtain ⟨h1, h2, h3⟩ := (pick_iff hs _ _ _ _).mp hp
    exact ⟨⟨rfl, rfl, rfl, rfl⟩, h3, x, h1, h2, rfl⟩
  refine ⟨fun hc => by rw [show calls = [] from congrArg Prod.snd (c1 hc)], ?_, ?_, ?_, ?_, ?_⟩
  · intro c hc
    by_cases hm : ∃ s, (W s).mode = .mandatory ∧ Harm A now mine W me h inv s
    · rw [show calls = [] from congrArg Prod.snd (c1 hm)] at hc; simp at hc
    · rcases c2 hm with ⟨_, he⟩ | ⟨x, s, hx, ho, hn, _, he⟩
      · rw [show calls = [] from he] at hc; simp at hc
      · rw [show calls = _ from he] at hc
        rcases List.mem_cons.mp hc with rfl | hc
        · exact ⟨⟨rfl, rfl, rfl, rfl⟩, hn, x, hx.1, hx.2.1, rfl, fun _ => hx.2.2⟩
        · obtain ⟨k1, k2, y, k3, k4, k5⟩ := hmust c hc
          exact ⟨k1, fun hh => hm ⟨_, k2, hh⟩, y, k3, k4, k5, fun hh => by rw [k2] at hh; cases hh⟩
  · intro hm x s hx ho hn
    rcases c2 hm with ⟨hall, _⟩ | ⟨x', s', hx', ho', hn', hb, he⟩
    · exact absurd (hall x s hx ho) hn
    · refine ⟨⟨call W mine (x', s'), ?_, ho', hb x s hx ho hn⟩, ?_⟩
      · rw [show calls = _ from he]; exact List.mem_cons_self
      · intro y u hy hu
        refine ⟨call W mine (y, u), ?_, rfl⟩
        rw [show calls = _ from he]
        refine List.mem_cons_of_mem _ (List.mem_map.mpr ⟨(y, u), ?_, rfl⟩)
        rw [(gather_lists W me h).1]
        exact (pick_iff hs _ _ _ _).mpr ⟨hy.1, hy.2.1, hu⟩
  · by_cases hm : ∃ s, (W s).mode = .mandatory ∧ Harm A now mine W me h inv s
    · rw [show calls = [] from congrArg Prod.snd (c1 hm)]; simp
    · rcases c2 hm with ⟨_, he⟩ | ⟨x, s, _, _, _, _, he⟩
      · rw [show calls = [] from he]; simp
      · rw [show calls = _ from he, List.filter_cons]
        have : ((gather W me h).must.map (call W mine)).filter (fun c => (W c.sim).mode == .optional) = [] := by
          rw [List.filter_eq_nil_iff]
          intro c hc
          rw [(hmust c hc).2.1]
          decide
        rw [this]
        split <;> simp
  · intro x s hx hr
    exact (commit_inv hs s).mpr (Or.inr ⟨hr, x, hx⟩)
  · intro s hn
    rw [Bool.eq_iff_iff, show inv' s = (commit A now W mine (gather W me h) inv).1 s from rfl, commit_inv hs s]
    constructor
    · rintro (hi | ⟨_, x, hx⟩)
      · exact hi
      · exact absurd hx (hn x)
    · exact Or.inl

namespace Ex
/-- 1 and 2 must be done, 3 and 4 may; 4 is the better one; 5 belongs to another controller. -/
def W : Nat → SimD
  | 1 => ⟨.mandatory, 1, 100, 11, 20, false, 7⟩
  | 2 => ⟨.mandatory, 1, 100, 12, 20, true, 7⟩
  | 3 => ⟨.optional, 1 / 2, 100, 13, 20, false, 7⟩
  | 4 => ⟨.optional, 1, 100, 14, 20, false, 7⟩
  | _ => ⟨.optional, 1, 100, 15, 20, false, 8⟩
def mine : Tgt := ⟨1, 110⟩
def ok (i s : Nat) : Outcome := ⟨i, [s], false, true, some ⟨1, 110⟩⟩
/-- A goal that is due later fails, and one that is due sooner. -/
def weak (i s : Nat) : Outcome := ⟨i, [s], false, false, some ⟨1, 210⟩⟩
def strong (i s : Nat) : Outcome := ⟨i, [s], false, false, some ⟨1, 60⟩⟩
def fine : Nat → Bool := fun _ => false
end Ex
open Ex

/-- Something that must be done and nothing that may: nothing is done. Something that must be done has been withdrawn: it
is done. It was seen to succeed twice: it is done twice. -/
theorem C124_commit_violated : ¬ C124_full ∧
    (commit F32.exact 10 W mine (gather W 7 [ok 31 1]) fine).2 = [] ∧
    (commit F32.exact 10 W mine (gather W 7 [{ ok 31 1 with dead := true }, ok 33 3]) fine).2.map Call.sim = [3, 1] ∧
    (commit F32.exact 10 W mine (gather W 7 [ok 31 1, ok 32 1, ok 33 3]) fine).2.map Call.sim = [3, 1, 1] := by
  refine ⟨?_, by decide +kernel, by decide +kernel, by decide +kernel⟩
  intro hf
  have h1 := (hf F32.exact 10 mine W 7 [ok 31 1] fine (by intro x hx _; simp at hx; subst hx; exact ⟨1, rfl⟩)).must
  rw [show (commit F32.exact 10 W mine (gather W 7 [ok 31 1]) fine).2 = [] by decide +kernel] at h1
  obtain ⟨c, hc, _⟩ := h1 (by
    rintro ⟨s, _, x, t, hx, hk, _⟩
    have := hx.1
    simp at this
    subst this
    cases hk) (ok 31 1) 1 ⟨⟨by simp, by simp [ok], rfl, rfl⟩, rfl, rfl, rfl⟩ rfl
  simp at hc

/-- C124 is not vacuous: the better of two solutions is chosen; the one that makes a stronger goal fail is not; a
mandatory one that does makes the monitor cave in. -/
theorem C124_nonvacuous :
    (commit F32.exact 10 W mine (gather W 7 [ok 31 3, ok 32 4, ok 33 5, weak 34 4, ok 35 1]) fine).2 =
      [⟨14, 20, false, 1, 32, 4⟩, ⟨11, 20, false, 1, 35, 1⟩] ∧
    (commit F32.exact 10 W mine (gather W 7 [ok 31 3, ok 32 4, strong 34 4]) fine).2 = [⟨13, 20, false, 1, 31, 3⟩] ∧
    (commit F32.exact 10 W mine (gather W 7 [ok 31 3, strong 34 2]) fine).2 = [] ∧
    Single [ok 31 3, ok 32 4, ok 33 5, weak 34 4, ok 35 1] ∧
    Harm F32.exact 10 mine W 7 [ok 31 3, ok 32 4, strong 34 4] fine 4 := by
  refine ⟨by decide +kernel, by decide +kernel, by decide +kernel, ?_, ?_⟩
  · intro x hx _
    simp only [List.mem_cons, List.not_mem_nil, or_false] at hx
    rcases hx with rfl | rfl | rfl | rfl | rfl <;> exact ⟨_, rfl⟩
  · exact ⟨strong 34 4, ⟨1, 60⟩, ⟨by simp, by simp [strong], rfl, rfl⟩, rfl, ⟨rfl, rfl⟩, rfl, by unfold Stronger; decide +kernel⟩

/-! ## C125 -/

/-- C125 in part: if the confidence of the goal is what the model would give it, and enough. Missing: it is not, see
`C125_commitment_violated`. -/
theorem C125_commitment_partial : ∀ A c now rdy K fresh B a sa g id m opposite mine s, Abduce.Concerns m opposite →
    g.sim = some s → 0 ≤ c.minThz → mine = A.mul c.rate g.cfd → c.thr < mine →
    commitTo A c now rdy K fresh B a sa g id m opposite mine =
      some (Abduce.reduceGoal A c now rdy K fresh B a sa
        { g with id := id, sim := some { mode := .root, thz := 0, sup := s.sup, root := c.id } } m) := by
  intro A c now rdy K fresh B a sa g id m o mine s hm hg _ hc ht
  subst hc
  unfold commitTo
  have hn : m ≠ .no := by rcases hm with ⟨_, rfl | rfl⟩ | ⟨_, rfl⟩ <;> simp
  rw [if_neg hn, hg]
  dsimp only
  exact congrArg some (Abduce.reduce_run A c now rdy K fresh B a sa
    { g with id := id, sim := some { mode := .root, thz := 0, sup := s.sup, root := c.id } } m o ht hm).symm

/-- What C125 means for the effects: the copy is a goal that is acted upon, so C119 says what is done. -/
theorem C125_acted_upon : ∀ A c now rdy K fresh B a sa g id m opposite s, Abduce.Concerns m opposite →
    g.sim = some s → 0 ≤ c.minThz → c.thr < A.mul c.rate g.cfd → ∃ es,
    commitTo A c now rdy K fresh B a sa g id m opposite (A.mul c.rate g.cfd) = some es ∧
    Abduce.C119At A c now rdy K B a
      { g with id := id, sim := some { mode := .root, thz := 0, sup := s.sup, root := c.id } } m es := by
  intro A c now rdy K fresh B a sa g id m o s hm hg h0 ht
  refine ⟨_, C125_commitment_partial A c now rdy K fresh B a sa g id m o _ s hm hg h0 rfl ht, ?_⟩
  refine Abduce.C119_pursued A c now rdy K fresh B a sa _ m ?_
  intro s' hs'
  cases hs'
  refine ⟨rfl, ?_⟩
  show (0 : Int) ≤ c.minThz.tdiv 2
  exact Int.tdiv_nonneg h0 (by norm_num)

namespace Ex
/-- A model that is right half of the time. -/
def half : Abduce.Ctl := { Abduce.Ex.plain with rate := 1 / 2, thr := 3 / 4 }
end Ex

/-- C125 fails as stated: the confidence is that of the goal monitored, the success rate of the model is not taken into
account and the threshold is not looked at: a goal is pursued through a model that would not have been used without
simulation. -/
theorem C125_commitment_violated : ¬ C125_full ∧
    ∃ es, commitTo F32.exact half 10 Abduce.Ex.ready Abduce.Ex.nothing (fun _ => true) Abduce.Ex.binds Abduce.Ex.yes
        Abduce.Ex.no Abduce.Ex.simGoal 6 .rhs false 1 = some es ∧ es ≠ [] ∧
      Abduce.reduceGoal F32.exact half 10 Abduce.Ex.ready Abduce.Ex.nothing (fun _ => true) Abduce.Ex.binds Abduce.Ex.yes
        Abduce.Ex.no { Abduce.Ex.simGoal with id := 6, sim := some { mode := .root, thz := 0, sup := 4, root := half.id } } .rhs = [] := by
  have key : (commitTo F32.exact half 10 Abduce.Ex.ready Abduce.Ex.nothing (fun _ => true) Abduce.Ex.binds Abduce.Ex.yes
        Abduce.Ex.no Abduce.Ex.simGoal 6 .rhs false 1).map List.length = some 3 := by decide +kernel
  have key' : Abduce.reduceGoal F32.exact half 10 Abduce.Ex.ready Abduce.Ex.nothing (fun _ => true) Abduce.Ex.binds Abduce.Ex.yes
        Abduce.Ex.no { Abduce.Ex.simGoal with id := 6, sim := some { mode := .root, thz := 0, sup := 4, root := half.id } } .rhs = [] := by
    decide +kernel
  constructor
  · intro hf
    have := hf F32.exact half 10 Abduce.Ex.ready Abduce.Ex.nothing (fun _ => true) Abduce.Ex.binds Abduce.Ex.yes
      Abduce.Ex.no Abduce.Ex.simGoal 6 .rhs false 1 Abduce.Ex.sim (Or.inl ⟨rfl, Or.inl rfl⟩) rfl (by decide)
    rw [this] at key
    rw [show Abduce.Ex.sim.sup = 4 from rfl, key'] at key
    cases key
  · obtain ⟨es, he, hl⟩ := Option.map_eq_some_iff.mp key
    exact ⟨es, he, (fun hh => by rw [hh] at hl; cases hl), key'⟩

/-- C125 is not vacuous. -/
theorem C125_nonvacuous : ∃ es, commitTo F32.exact Abduce.Ex.plain 10 Abduce.Ex.ready Abduce.Ex.nothing (fun _ => true)
    Abduce.Ex.binds Abduce.Ex.yes Abduce.Ex.no Abduce.Ex.simGoal 6 .rhs false 1 = some es ∧ es.length = 3 :=
  ⟨_, rfl, by decide +kernel⟩

/-! ## C126 -/

/-- C126 in part: if no mandatory simulation makes a stronger goal fail; and no simulation is stopped without reason.
Missing: if one does, only the first such one is stopped, see `C126_damage_violated`. -/
theorem C126_damage_partial : ∀ A now mine W me h inv s, Single h →
    ((subCommit A now mine (gather W me h) inv) s = true → inv s = true ∨ ((W s).mode ≠ .root ∧
      ∃ x t, Seen W me h x s ∧ x.success = false ∧ x.goal = some t ∧ Stronger A now t mine)) ∧
    (inv s = true → (subCommit A now mine (gather W me h) inv) s = true) ∧
    ((∀ u x t, Seen W me h x u → (W u).mode = .mandatory → inv u = false → x.success = false → x.goal = some t →
        ¬ Stronger A now t mine) →
      (W s).mode ≠ .root → (∃ x t, Seen W me h x s ∧ x.success = false ∧ x.goal = some t ∧ Stronger A now t mine) →
        (subCommit A now mine (gather W me h) inv) s = true) := by
  intro A now mine W me h inv s hs
  obtain ⟨g1, g2, g3, g4⟩ := gather_lists W me h
  unfold subCommit
  cases hf : (gather W me h).mustFail.find? (fun p => !inv p.2 && harms A now mine p.1) with
  | some p =>
    obtain ⟨x, u⟩ := p
    have hp := List.mem_of_find?_eq_some hf
    have hc := List.find?_some hf
    rw [g3] at hp
    obtain ⟨k1, k2, k3⟩ := (pick_iff hs _ _ _ _).mp hp
    rw [Bool.and_eq_true, harms_iff] at hc
    obtain ⟨ki, t, kt, kst⟩ := hc
    dsimp only [stop]
    refine ⟨?_, ?_, ?_⟩
    · intro hh
      rw [Bool.or_eq_true, beq_iff_eq] at hh
      rcases hh with rfl | hh
      · exact Or.inr ⟨by rw [k3]; simp, x, t, k1, k2, kt, kst⟩
      · exact Or.inl hh
    · intro hi; simp [hi]
    · intro hall _ _
      exact absurd kst (hall u x t k1 k3 (by simpa using ki) k2 kt)
  | none =>
    rw [List.find?_eq_none] at hf
    dsimp only
    rw [subDrop_iff, g4]
    refine ⟨?_, Or.inl, ?_⟩
    · rintro (hi | ⟨⟨x, u⟩, hp, rfl, hh⟩)
      · exact Or.inl hi
      · obtain ⟨k1, k2, k3⟩ := (pick_iff hs _ _ _ _).mp hp
        obtain ⟨t, kt, kst⟩ := harms_iff.mp hh
        exact Or.inr ⟨by rw [k3]; simp, x, t, k1, k2, kt, kst⟩
    · rintro _ hr ⟨x, t, k1, k2, kt, kst⟩
      cases hm : (W s).mode with
      | root => exact absurd hm hr
      | optional =>
        exact Or.inr ⟨(x, s), (pick_iff hs _ _ _ _).mpr ⟨k1, k2, hm⟩, rfl, harms_iff.mpr ⟨t, kt, kst⟩⟩
      | mandatory =>
        have := hf (x, s) (by rw [g3]; exact (pick_iff hs _ _ _ _).mpr ⟨k1, k2, hm⟩)
        rw [Bool.and_eq_true, not_and] at this
        by_cases hi : inv s = true
        · exact Or.inl hi
        · exact absurd (harms_iff.mpr ⟨t, kt, kst⟩) (this (by simpa using hi))

/-- C126 fails as stated: a mandatory simulation makes a stronger goal fail; an optional one that does so too is let
through. -/
theorem C126_damage_violated : ¬ C126_full ∧
    (subCommit F32.exact 10 mine (gather W 7 [strong 31 1, strong 32 3, strong 33 2]) fine) 3 = false ∧
    (subCommit F32.exact 10 mine (gather W 7 [strong 31 1, strong 32 3, strong 33 2]) fine) 2 = false := by
  have key : (subCommit F32.exact 10 mine (gather W 7 [strong 31 1, strong 32 3, strong 33 2]) fine) 3 = false := by decide +kernel
  refine ⟨?_, key, by decide +kernel⟩
  intro hf
  have := (hf F32.exact 10 mine W 7 [strong 31 1, strong 32 3, strong 33 2] fine 3 (by
    intro x hx _
    simp only [List.mem_cons, List.not_mem_nil, or_false] at hx
    rcases hx with rfl | rfl | rfl <;> exact ⟨_, rfl⟩)).mpr
    (Or.inr ⟨by decide, strong 32 3, ⟨1, 60⟩, ⟨by simp, by simp [strong], rfl, rfl⟩, rfl, rfl, by unfold Stronger; decide +kernel⟩)
  rw [key] at this
  cases this

/-- C126 is not vacuous. -/
theorem C126_nonvacuous :
    (subCommit F32.exact 10 mine (gather W 7 [strong 31 3, weak 32 4]) fine) 3 = true ∧
    (subCommit F32.exact 10 mine (gather W 7 [strong 31 3, weak 32 4]) fine) 4 = false := by
  exact ⟨by decide +kernel, by decide +kernel⟩

end Verif.Commit
