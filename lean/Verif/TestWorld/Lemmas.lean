import Verif.TestWorld.Spec
import Verif.Screen.Props
/-!
# Lemmas on the test environment
-/
namespace Verif.TestWorld
open Verif.Atom Verif.Observe
open Verif.Screen (Answer at_ function function_of)

/-- The hand is at one of ten places and is about to go to the one beside it; without a hand nothing is to be done. -/
def Inv (w : World) : Prop :=
  (w.hand = none → w.place = 0 ∧ w.next = none) ∧ w.place ≤ 9 ∧
    ∀ n, w.next = some n → n ≤ 9 ∧ (n = w.place + 1 ∨ n + 1 = w.place)

/-- Where the hand is or is about to be. -/
def base (w : World) : Int := ((w.next.getD w.place : Nat) : Int)

/-- The parts of the hand are the same. -/
def SameHand (w w' : World) : Prop := w'.hand = w.hand ∧ w'.place = w.place ∧ w'.next = w.next

theorem inv_of_same {w w' : World} (h : SameHand w w') (hI : Inv w) : Inv w' := by
  obtain ⟨h1, h2, h3⟩ := h
  unfold Inv
  rw [h1, h2, h3]
  exact hI

theorem base_of_same {w w' : World} (h : SameHand w w') : base w' = base w := by
  unfold base
  rw [h.2.1, h.2.2]

/-! ## Commands -/

theorem ready_spec {c : Cfg} {w w' : World} {o : Obj} {a : Answer} (h : ready c w o = some (a, w')) :
    SameHand w w' ∧ w'.velocity = w.velocity ∧ w'.force = w.force := by
  have hs : SameHand w w ∧ w.velocity = w.velocity ∧ w.force = w.force := ⟨⟨rfl, rfl, rfl⟩, rfl, rfl⟩
  simp only [ready] at h
  split at h
  · obtain ⟨s, _, h⟩ := Option.map_eq_some_iff.mp h
    split at h
    · split at h
      · obtain ⟨rfl, rfl⟩ := by simpa using h
        exact hs
      · split at h
        · obtain ⟨rfl, rfl⟩ := by simpa using h
          exact hs
        · split at h
          · obtain ⟨rfl, rfl⟩ := by simpa using h
            exact hs
          · split at h <;> (obtain ⟨rfl, rfl⟩ := by simpa using h) <;> exact hs
    · split at h
      · split at h
        · obtain ⟨rfl, rfl⟩ := by simpa using h
          exact hs
        · split at h
          · obtain ⟨rfl, rfl⟩ := by simpa using h
            exact hs
          · split at h
            · obtain ⟨rfl, rfl⟩ := by simpa using h
              exact hs
            · split at h <;> (obtain ⟨rfl, rfl⟩ := by simpa using h) <;> exact hs
      · obtain ⟨rfl, rfl⟩ := by simpa using h
        exact hs
  · obtain ⟨rfl, rfl⟩ := by simpa using h
    exact hs

theorem setVelocity_spec {c : Cfg} {w w' : World} {now : Int} {o : Obj} {a : Answer}
    (h : setVelocity c w now o = some (a, w')) : SameHand w w' ∧
      w'.velocity = (if a = .null then w.velocity else argument o) ∧ w'.force = w.force := by
  unfold setVelocity at h
  split at h
  · obtain ⟨rfl, rfl⟩ := by simpa using h
    exact ⟨⟨rfl, rfl, rfl⟩, rfl, rfl⟩
  · obtain ⟨obj, _, h⟩ := Option.map_eq_some_iff.mp h
    split at h
    · obtain ⟨rfl, rfl⟩ := by simpa using h
      exact ⟨⟨rfl, rfl, rfl⟩, rfl, rfl⟩
    · split at h <;> (obtain ⟨rfl, rfl⟩ := by simpa using h) <;> exact ⟨⟨rfl, rfl, rfl⟩, rfl, rfl⟩

/-- A force within its limits. -/
def clip (f : BitVec 32) : BitVec 32 :=
  if less 0x41A00000 f then 0x41A00000 else if less f 0xC1A00000 then 0xC1A00000 else f

theorem putForce_spec (c : Cfg) (w : World) (f : BitVec 32) : SameHand w (putForce c w f).2 ∧
    (putForce c w f).2.force = clip f ∧ (putForce c w f).1 ≠ .null ∧ (putForce c w f).2.velocity = w.velocity ∧
    (putForce c w f).2.cartObj = w.cartObj := by
  unfold putForce clip maxForce minForce
  split
  · exact ⟨⟨rfl, rfl, rfl⟩, rfl, by simp, rfl, rfl⟩
  · split <;> exact ⟨⟨rfl, rfl, rfl⟩, rfl, by simp, rfl, rfl⟩

theorem setForce_spec {c : Cfg} {w w' : World} {now : Int} {o : Obj} {a : Answer}
    (h : setForce c w now o = some (a, w')) : SameHand w w' ∧
      w'.force = (if a = .null then w.force else clip (argument o)) ∧ w'.velocity = w.velocity := by
  unfold setForce at h
  split at h
  · obtain ⟨rfl, rfl⟩ := by simpa using h
    exact ⟨⟨rfl, rfl, rfl⟩, rfl, rfl⟩
  · obtain ⟨obj, _, h⟩ := Option.map_eq_some_iff.mp h
    split at h
    · have hp := putForce_spec c { w with lastCommand := now, cartObj := obj } (argument o)
      rw [h] at hp
      exact ⟨hp.1, by rw [if_neg hp.2.2.1]; exact hp.2.1, hp.2.2.2.1⟩
    · split at h
      · obtain ⟨rfl, rfl⟩ := by simpa using h
        exact ⟨⟨rfl, rfl, rfl⟩, rfl, rfl⟩
      · have hp := putForce_spec c { w with lastCommand := now } (argument o)
        rw [h] at hp
        exact ⟨hp.1, by rw [if_neg hp.2.2.1]; exact hp.2.1, hp.2.2.2.1⟩

/-- By how much a command moves the hand, if it is at `b` or about to be there. -/
def moved (c : Cfg) (f : BitVec 16) (a : Answer) (b : Int) : Int :=
  if a = .null then 0
  else if f = c.ops.plus then (if b ≤ 8 then 1 else 0)
  else if f = c.ops.minus then (if 1 ≤ b then -1 else 0)
  else 0

theorem schedule_spec {c : Cfg} {w : World} {now : Int} {f : BitVec 16} (hI : Inv w) (hh : w.hand ≠ none)
    (hf : f = c.ops.plus ∨ f = c.ops.minus) :
    Inv (schedule c w now f).2 ∧ (schedule c w now f).2.place = w.place ∧
      base (schedule c w now f).2 = base w + moved c f (schedule c w now f).1 (base w) ∧
      (schedule c w now f).2.velocity = w.velocity ∧ (schedule c w now f).2.force = w.force ∧
      (schedule c w now f).2.hand = w.hand := by
  obtain ⟨h1, h2, h3⟩ := hI
  unfold schedule
  split
  · exact ⟨⟨h1, h2, h3⟩, rfl, by simp [moved], rfl, rfl, rfl⟩
  · rename_i hn
    have hnone : w.next = none := by
      cases h : w.next with
      | none => rfl
      | some n => rw [h] at hn; simp at hn
    have hb : base w = (w.place : Int) := by unfold base; rw [hnone]; rfl
    rw [hb]
    split
    · rename_i hp
      refine ⟨⟨fun hh' => absurd hh' hh, h2, ?_⟩, rfl, ?_, rfl, rfl, rfl⟩
      · intro n hn
        dsimp only at hn ⊢
        split at hn
        · obtain rfl := Option.some.inj hn
          exact ⟨by omega, .inl rfl⟩
        · cases hn
      · unfold base moved
        rw [if_neg (show ¬ Answer.same = Answer.null by simp), if_pos hp]
        dsimp only
        by_cases hle : w.place ≤ 8
        · rw [if_pos hle, if_pos (by omega)]
          simp
        · rw [if_neg hle, if_neg (by omega)]
          simp
    · rename_i hp
      have hm : f = c.ops.minus := by
        rcases hf with hf | hf
        · exact absurd hf hp
        · exact hf
      rw [if_pos hm]
      refine ⟨⟨fun hh' => absurd hh' hh, h2, ?_⟩, rfl, ?_, rfl, rfl, rfl⟩
      · intro n hn
        dsimp only at hn ⊢
        split at hn
        · obtain rfl := Option.some.inj hn
          exact ⟨by omega, .inr (by omega)⟩
        · cases hn
      · unfold base moved
        rw [if_neg (show ¬ Answer.same = Answer.null by simp), if_neg hp, if_pos hm]
        dsimp only
        by_cases hle : 1 ≤ w.place
        · rw [if_pos ⟨hle, h2⟩, if_pos (by omega)]
          simp
          omega
        · rw [if_neg (by omega), if_neg (by omega)]
          simp

theorem move_spec {c : Cfg} {w w' : World} {now : Int} {o : Obj} {a : Answer} (hI : Inv w) (hn : NoNull o)
    (hf : function o = c.ops.plus ∨ function o = c.ops.minus) (h : move c w now o = some (a, w')) :
    Inv w' ∧ w'.place = w.place ∧ base w' = base w + moved c (function o) a (base w) ∧ w'.velocity = w.velocity ∧
      w'.force = w.force := by
  have hs : Inv w ∧ w.place = w.place ∧ base w = base w + moved c (function o) .null (base w) ∧
      w.velocity = w.velocity ∧ w.force = w.force := ⟨hI, rfl, by simp [moved], rfl, rfl⟩
  unfold move at h
  split at h
  · obtain ⟨rfl, rfl⟩ := by simpa using h
    exact hs
  · obtain ⟨obj, hobj, h⟩ := Option.map_eq_some_iff.mp h
    split at h
    · rename_i hnone
      have hnone : w.hand = none := by simpa using hnone
      obtain ⟨hp0, hn0⟩ := hI.1 hnone
      have hsome : obj ≠ none := by
        have := hn obj (List.mem_of_getElem? hobj)
        intro hh
        rw [hh] at this
        simp at this
      have hsp := schedule_spec (c := c) (w := { w with hand := obj, place := 0 }) (now := now) (f := function o)
        ⟨fun hh => absurd hh hsome, by simp, fun n hh => by
          rw [show World.next { w with hand := obj, place := 0 } = w.next from rfl, hn0] at hh; cases hh⟩ hsome hf
      rw [h] at hsp
      obtain ⟨s1, s2, s3, s4, s5, _⟩ := hsp
      have hb : base { w with hand := obj, place := 0 } = base w := by
        unfold base
        rw [hn0, hp0]
      rw [hb] at s3
      exact ⟨s1, by rw [s2, hp0], s3, s4, s5⟩
    · rename_i hsome
      split at h
      · obtain ⟨rfl, rfl⟩ := by simpa using h
        exact hs
      · have hsp := schedule_spec (now := now) (f := function o) hI (by simpa using hsome) hf
        rw [h] at hsp
        obtain ⟨s1, s2, s3, s4, s5, _⟩ := hsp
        exact ⟨s1, s2, s3, s4, s5⟩

/-- What a command does to the hand, to the velocity and to the force. -/
theorem eject_spec {c : Cfg} {w w' : World} {now : Int} {o : Obj} {a : Answer} (hg : c.ops.Good) (hI : Inv w)
    (hn : NoNull o) (h : eject c w now o = some (a, w')) :
    Inv w' ∧ w'.place = w.place ∧ base w' = base w + moved c (function o) a (base w) ∧
      w'.velocity = (if a ≠ .null ∧ function o = c.ops.setVelocity then argument o else w.velocity) ∧
      w'.force = (if a ≠ .null ∧ function o = c.ops.setForce then clip (argument o) else w.force) := by
  obtain ⟨_, g1, g2, g3, g4, g5, g6, g7, g8, g9, g10⟩ := hg
  have hkeep : ∀ {w1 : World}, SameHand w w1 → function o ≠ c.ops.plus → function o ≠ c.ops.minus →
      Inv w1 ∧ w1.place = w.place ∧ base w1 = base w + moved c (function o) a (base w) := by
    intro w1 hs hp hm
    refine ⟨inv_of_same hs hI, hs.2.1, ?_⟩
    unfold moved
    rw [if_neg hp, if_neg hm, base_of_same hs]
    split <;> simp
  unfold eject at h
  split at h
  · rename_i hf
    obtain ⟨hs, hv, hfo⟩ := ready_spec h
    obtain ⟨k1, k2, k3⟩ := hkeep hs (by rw [hf]; exact fun e => g2 e.symm) (by rw [hf]; exact fun e => g5 e.symm)
    refine ⟨k1, k2, k3, ?_, ?_⟩
    · rw [if_neg (by rw [hf]; exact fun e => g8 e.2.symm), hv]
    · rw [if_neg (by rw [hf]; exact fun e => g9 e.2.symm), hfo]
  · split at h
    · rename_i hf
      obtain ⟨hs, hv, hfo⟩ := setVelocity_spec h
      obtain ⟨k1, k2, k3⟩ := hkeep hs (by rw [hf]; exact fun e => g3 e.symm) (by rw [hf]; exact fun e => g6 e.symm)
      refine ⟨k1, k2, k3, ?_, ?_⟩
      · rw [hv]
        by_cases ha : a = .null <;> simp [ha, hf]
      · rw [if_neg (by rw [hf]; exact fun e => g10 e.2.symm), hfo]
    · split at h
      · rename_i hf
        obtain ⟨hs, hfo, hv⟩ := setForce_spec h
        obtain ⟨k1, k2, k3⟩ := hkeep hs (by rw [hf]; exact fun e => g4 e.symm) (by rw [hf]; exact fun e => g7 e.symm)
        refine ⟨k1, k2, k3, ?_, ?_⟩
        · rw [if_neg (by rw [hf]; exact fun e => g10 e.2), hv]
        · rw [hfo]
          by_cases ha : a = .null <;> simp [ha, hf]
      · rename_i hn1 hn2 hn3
        split at h
        · rename_i hf
          have hf : function o = c.ops.plus ∨ function o = c.ops.minus := by simpa using hf
          obtain ⟨s1, s2, s3, s4, s5⟩ := move_spec hI hn hf h
          exact ⟨s1, s2, s3, by rw [if_neg (fun e => hn2 e.2), s4], by rw [if_neg (fun e => hn3 e.2), s5]⟩
        · rename_i hf
          have hf : function o ≠ c.ops.plus ∧ function o ≠ c.ops.minus := by simpa using hf
          obtain ⟨rfl, rfl⟩ := by simpa using h
          obtain ⟨k1, k2, k3⟩ := hkeep ⟨rfl, rfl, rfl⟩ hf.1 hf.2
          exact ⟨k1, k2, k3, by simp, by simp⟩

/-! ## Ticks -/

theorem tickBall_spec (c : Cfg) (D : Dyn) (w : World) (now : Int) : SameHand w (tickBall c D w now).2 ∧
    (tickBall c D w now).2.velocity = w.velocity ∧ (tickBall c D w now).2.force = w.force ∧
    (tickBall c D w now).1.filterMap placeOf = [] ∧ (tickBall c D w now).2.lastCommand = w.lastCommand ∧
    (∀ out ∈ (tickBall c D w now).1, ∃ b x s, (out = .number b .velocityY (float w.velocity) now (now + c.period) .hold ∨
      (out = .number b .positionY x now (now + c.period) s ∧ s ≠ .hold))) := by
  unfold tickBall
  split
  · exact ⟨⟨rfl, rfl, rfl⟩, rfl, rfl, rfl, rfl, by simp⟩
  · refine ⟨⟨rfl, rfl, rfl⟩, rfl, rfl, rfl, rfl, ?_⟩
    intro out ho
    simp only [List.mem_cons, List.not_mem_nil, or_false] at ho
    rcases ho with rfl | rfl
    · exact ⟨_, 0, .hold, .inl rfl⟩
    · exact ⟨_, _, _, .inr ⟨rfl, by simp⟩⟩

theorem tickCart_spec (c : Cfg) (D : Dyn) (w : World) (now : Int) : SameHand w (tickCart c D w now).2 ∧
    (tickCart c D w now).2.velocity = w.velocity ∧ (tickCart c D w now).2.force = w.force ∧
    (tickCart c D w now).1.filterMap placeOf = [] ∧ (tickCart c D w now).2.lastCommand = w.lastCommand ∧
    (∀ out ∈ (tickCart c D w now).1, ∃ b at_ x, out = .number b at_ x now (now + c.period) .periodic ∧
      (at_ = .forceY → x = float w.force)) := by
  unfold tickCart
  split
  · exact ⟨⟨rfl, rfl, rfl⟩, rfl, rfl, rfl, rfl, by simp⟩
  · refine ⟨⟨rfl, rfl, rfl⟩, rfl, rfl, rfl, rfl, ?_⟩
    intro out ho
    simp only [List.mem_cons, List.not_mem_nil, or_false] at ho
    rcases ho with rfl | rfl | rfl | rfl | rfl
    · exact ⟨_, _, _, rfl, fun _ => rfl⟩
    all_goals exact ⟨_, _, _, rfl, fun h => by cases h⟩

theorem tickHand_eq (c : Cfg) (w : World) (now : Int) (h : Nat) (hh : w.hand = some h) : tickHand c w now =
    (if now - c.ref < 3700000 then
      ([.place h (settle c w now).place now (now + c.period),
        .goal h (if 0 ≤ nextBabble { settle c w now with last := now } ∧ nextBabble { settle c w now with last := now } ≤ 8
          then c.ops.plus else c.ops.minus) (now + c.period + 2 * c.tol) (now + 2 * c.period)
          (now + c.period + 2 * c.tol) (now + c.period)],
        { settle c w now with last := now, babble := nextBabble { settle c w now with last := now } })
    else ([.place h (settle c w now).place now (now + c.period)], { settle c w now with last := now })) := by
  unfold tickHand
  rw [hh]

theorem settle_spec (c : Cfg) (w : World) (now : Int) (hI : Inv w) : Inv (settle c w now) ∧
    base (settle c w now) = base w ∧ w.place ≤ (settle c w now).place + 1 ∧ (settle c w now).place ≤ w.place + 1 ∧
    (settle c w now).velocity = w.velocity ∧ (settle c w now).force = w.force ∧ (settle c w now).hand = w.hand ∧
    (settle c w now).lastCommand = w.lastCommand := by
  unfold settle
  split
  · exact ⟨hI, rfl, by omega, by omega, rfl, rfl, rfl, rfl⟩
  · rename_i n hn
    split
    · obtain ⟨h1, h2, h3⟩ := hI
      have := h3 n hn
      refine ⟨⟨fun hh => ?_, this.1, fun m hm => by cases hm⟩, ?_, ?_, ?_, rfl, rfl, rfl, rfl⟩
      · have := (h1 hh).2
        rw [hn] at this
        cases this
      · unfold base
        rw [hn]
        rfl
      · show w.place ≤ n + 1
        omega
      · show n ≤ w.place + 1
        omega
    · exact ⟨hI, rfl, by omega, by omega, rfl, rfl, rfl, rfl⟩

theorem tickHand_spec (c : Cfg) (w : World) (now : Int) (hI : Inv w) : Inv (tickHand c w now).2 ∧
    base (tickHand c w now).2 = base w ∧ (tickHand c w now).2.velocity = w.velocity ∧
    (tickHand c w now).2.force = w.force ∧ (tickHand c w now).2.lastCommand = w.lastCommand ∧
    (((tickHand c w now).1.filterMap placeOf = [] ∧ (tickHand c w now).2.place = w.place) ∨
      ((tickHand c w now).1.filterMap placeOf = [(tickHand c w now).2.place] ∧
        w.place ≤ (tickHand c w now).2.place + 1 ∧ (tickHand c w now).2.place ≤ w.place + 1)) ∧
    (∀ out ∈ (tickHand c w now).1, ∃ h, (∃ p, out = .place h p now (now + c.period)) ∨
      (now - c.ref < 3700000 ∧ ∃ op, out = .goal h op (now + c.period + 2 * c.tol) (now + 2 * c.period)
        (now + c.period + 2 * c.tol) (now + c.period) ∧
        ((tickHand c w now).2.place = 0 → op = c.ops.plus) ∧ ((tickHand c w now).2.place = 9 → op = c.ops.minus))) := by
  cases hh : w.hand with
  | none =>
    have : tickHand c w now = ([], w) := by
      unfold tickHand
      rw [hh]
    rw [this]
    exact ⟨hI, rfl, rfl, rfl, rfl, .inl ⟨rfl, rfl⟩, by simp⟩
  | some h =>
    rw [tickHand_eq c w now h hh]
    obtain ⟨s1, s2, s3, s4, s5, s6, s7, s8⟩ := settle_spec c w now hI
    split
    · rename_i hr
      refine ⟨s1, s2, s5, s6, s8, .inr ⟨rfl, s3, s4⟩, ?_⟩
      intro out ho
      simp only [List.mem_cons, List.not_mem_nil, or_false] at ho
      rcases ho with rfl | rfl
      · exact ⟨h, .inl ⟨_, rfl⟩⟩
      · refine ⟨h, .inr ⟨hr, _, rfl, ?_, ?_⟩⟩
        · intro h0
          have h0 : (settle c w now).place = 0 := h0
          rw [show nextBabble { settle c w now with last := now } = 1 by unfold nextBabble; rw [if_pos h0]]
          rfl
        · intro h9
          have h9 : (settle c w now).place = 9 := h9
          rw [show nextBabble { settle c w now with last := now } = 10 by
            unfold nextBabble
            rw [if_neg (by dsimp only; omega), if_pos h9]]
          rfl
    · refine ⟨s1, s2, s5, s6, s8, .inr ⟨rfl, s3, s4⟩, ?_⟩
      intro out ho
      simp only [List.mem_cons, List.not_mem_nil, or_false] at ho
      subst ho
      exact ⟨h, .inl ⟨_, rfl⟩⟩

/-- The states after the ball and after the cart. -/
theorem tick_eq (c : Cfg) (D : Dyn) (w : World) (now : Int) (hn : ¬ now ≤ w.last + (c.period * 8).tdiv 10) :
    ∃ w2 l1 l2, tick c D w now = (l1 ++ l2 ++ (tickHand c w2 now).1, (tickHand c w2 now).2) ∧ SameHand w w2 ∧
      w2.velocity = w.velocity ∧ w2.force = w.force ∧ w2.lastCommand = w.lastCommand ∧ l1.filterMap placeOf = [] ∧
      l2.filterMap placeOf = [] ∧
      (∀ out ∈ l1, ∃ b x s, (out = .number b .velocityY (float w.velocity) now (now + c.period) .hold ∨
        (out = .number b .positionY x now (now + c.period) s ∧ s ≠ .hold))) ∧
      (∀ out ∈ l2, ∃ b at_ x, out = .number b at_ x now (now + c.period) .periodic ∧
        (at_ = .forceY → x = float w.force)) := by
  obtain ⟨⟨a1, a2, a3⟩, a4, a5, a6, a7, a8⟩ := tickBall_spec c D w now
  obtain ⟨⟨b1, b2, b3⟩, b4, b5, b6, b7, b8⟩ := tickCart_spec c D (tickBall c D w now).2 now
  refine ⟨(tickCart c D (tickBall c D w now).2 now).2, (tickBall c D w now).1,
    (tickCart c D (tickBall c D w now).2 now).1, ?_, ⟨b1.trans a1, b2.trans a2, b3.trans a3⟩, b4.trans a4, b5.trans a5,
    b7.trans a7, a6, b6, a8, ?_⟩
  · unfold tick
    rw [if_neg hn]
  · rw [a5] at b8
    exact b8

theorem tick_spec (c : Cfg) (D : Dyn) (w : World) (now : Int) (hI : Inv w) : Inv (tick c D w now).2 ∧
    base (tick c D w now).2 = base w ∧ (tick c D w now).2.velocity = w.velocity ∧ (tick c D w now).2.force = w.force ∧
    (tick c D w now).2.lastCommand = w.lastCommand ∧
    (((tick c D w now).1.filterMap placeOf = [] ∧ (tick c D w now).2.place = w.place) ∨
      ((tick c D w now).1.filterMap placeOf = [(tick c D w now).2.place] ∧
        w.place ≤ (tick c D w now).2.place + 1 ∧ (tick c D w now).2.place ≤ w.place + 1)) := by
  by_cases hn : now ≤ w.last + (c.period * 8).tdiv 10
  · have : tick c D w now = ([], w) := by unfold tick; rw [if_pos hn]
    rw [this]
    exact ⟨hI, rfl, rfl, rfl, rfl, .inl ⟨rfl, rfl⟩⟩
  · obtain ⟨w2, l1, l2, he, hs, hv, hf, hl, hp1, hp2, _, _⟩ := tick_eq c D w now hn
    obtain ⟨t1, t2, t3, t4, t5, t6, _⟩ := tickHand_spec c w2 now (inv_of_same hs hI)
    rw [he]
    refine ⟨t1, t2.trans (base_of_same hs), t3.trans hv, t4.trans hf, t5.trans hl, ?_⟩
    rw [← hs.2.1]
    simp only [List.filterMap_append, hp1, hp2, List.nil_append]
    exact t6

end Verif.TestWorld
