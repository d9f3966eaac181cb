import Verif.TestWorld.Lemmas
import Mathlib.Tactic.SplitIfs
/-!
# Proofs of C104, C105 and C106
-/
namespace Verif.TestWorld
open Verif.Atom Verif.Observe
open Verif.Screen (Answer at_ function function_of)

theorem commands_eject (now : Int) (o : Obj) (es : List Event) : commands (.eject now o :: es) = o :: commands es := rfl
theorem commands_tick (now : Int) (es : List Event) : commands (.tick now :: es) = commands es := rfl

theorem inv_initial : Inv initial := ⟨fun _ => ⟨rfl, rfl⟩, by decide, fun n h => by cases h⟩

theorem run_eject {c : Cfg} {D : Dyn} {w w' : World} {now : Int} {o : Obj} {es : List Event} {l : List Shown}
    (h : run c D w (.eject now o :: es) = some (l, w')) :
    ∃ a w1 l1, eject c w now o = some (a, w1) ∧ run c D w1 es = some (l1, w') ∧ l = .answer now o a :: l1 := by
  rw [run] at h
  obtain ⟨⟨a, w1⟩, he, h⟩ := Option.bind_eq_some_iff.mp h
  obtain ⟨⟨l1, w2⟩, hr, h⟩ := Option.map_eq_some_iff.mp h
  obtain ⟨rfl, rfl⟩ := by simpa using h
  exact ⟨a, w1, l1, he, hr, rfl⟩

theorem run_tick {c : Cfg} {D : Dyn} {w w' : World} {now : Int} {es : List Event} {l : List Shown}
    (h : run c D w (.tick now :: es) = some (l, w')) :
    ∃ l1, run c D (tick c D w now).2 es = some (l1, w') ∧ l = .injected now (tick c D w now).1 :: l1 := by
  rw [run] at h
  obtain ⟨⟨l1, w2⟩, hr, h⟩ := Option.map_eq_some_iff.mp h
  obtain ⟨rfl, rfl⟩ := by simpa using h
  exact ⟨l1, hr, rfl⟩

/-- What holds of the hand whatever the opcodes are. -/
theorem eject_inv {c : Cfg} {w w' : World} {now : Int} {o : Obj} {a : Answer} (hI : Inv w) (hn : NoNull o)
    (h : eject c w now o = some (a, w')) : Inv w' := by
  unfold eject at h
  split at h
  · exact inv_of_same (ready_spec h).1 hI
  · split at h
    · exact inv_of_same (setVelocity_spec h).1 hI
    · split at h
      · exact inv_of_same (setForce_spec h).1 hI
      · split at h
        · rename_i hf
          exact (move_spec hI hn (by simpa using hf) h).1
        · obtain ⟨rfl, rfl⟩ := by simpa using h
          exact hI

theorem run_inv {c : Cfg} {D : Dyn} : ∀ (es : List Event) {w w' : World} {l : List Shown}, Inv w →
    (∀ o ∈ commands es, NoNull o) → run c D w es = some (l, w') → Inv w' := by
  intro es
  induction es with
  | nil =>
    intro w w' l hI _ h
    obtain ⟨rfl, rfl⟩ : [] = l ∧ w = w' := by simpa [run] using h
    exact hI
  | cons e es ih =>
    intro w w' l hI hn h
    cases e with
    | eject now o =>
      obtain ⟨a, w1, l1, he, hr, _⟩ := run_eject h
      rw [commands_eject] at hn
      exact ih (eject_inv hI (hn o (by simp)) he) (fun o' ho' => hn o' (by simp [ho'])) hr
    | tick now =>
      obtain ⟨l1, hr, _⟩ := run_tick h
      rw [commands_tick] at hn
      exact ih (tick_spec c D w now hI).1 hn hr

/-! ## C104 -/

theorem args_of {o : Obj} {op : BitVec 16} {obj : Nat} {X : Option Word} (h : IsCmd o op obj X) (hop : op.toNat < 256) :
    function o = op ∧ object o = some (some obj) ∧ ∀ x, X = some x → argument o = asFloat x := by
  obtain ⟨h1, w, h2, ⟨r, hr, _, hrr⟩, hX⟩ := h
  have ha : at_ o 2 = w := by rw [at_, h2]; rfl
  refine ⟨function_of h1 hop, ?_, ?_⟩
  · unfold object
    rw [ha, show at_ o ((asIndex w).toNat + 1) = r by (rw [at_, hr]; rfl)]
    exact hrr
  · intro x hx
    unfold argument
    rw [ha, show at_ o ((asIndex w).toNat + 2) = x by (rw [at_, hX, hx]; rfl)]

theorem forced_is (c : Cfg) (obj : Nat) (f : BitVec 32) :
    IsCmd (forced c (some obj) f) c.ops.setForce obj (some (float f)) := by
  have : forced c (some obj) f = ⟨[Atom.object c.ops.cmd 3, deviceFunction c.ops.setForce, iPointer 4, one, Atom.set 2,
      rPointer 0, float f], [some obj]⟩ := by
    simp [forced, Obj.put, Obj.setRef, Words.put, Words.grow]
  rw [this]
  refine ⟨rfl, iPointer 4, rfl, ⟨rPointer 0, ?_, by decide, ?_⟩, ?_⟩
  all_goals first
    | rw [show (asIndex (iPointer 4)).toNat = 4 by decide]; rfl
    | rw [show (asIndex (rPointer 0)).toNat = 0 by decide]; rfl

/-- C104, the part that holds (missing: functions with opcodes of more than eight bits, and steps of the hand beyond
its first and last place). Besides, a force is never put beyond the limit of 20. -/
theorem C104_answers_partial (c : Cfg) (D : Dyn) (es : List Event) (l : List Shown) (w : World)
    (hes : ∀ o ∈ commands es, NoNull o) (hrun : run c D initial es = some (l, w)) (now : Int) (o : Obj)
    (op : BitVec 16) (obj : Nat) (X : Option Word) (hready : op ≠ c.ops.ready) (h : IsCmd o op obj X)
    (hX : op = c.ops.setVelocity ∨ op = c.ops.setForce → X.isSome) (hop : op.toNat < 256)
    (hplus : op = c.ops.plus → w.place ≠ 9) (hminus : op = c.ops.minus → op ≠ c.ops.plus → w.place ≠ 0) :
    ∃ a w', eject c w now o = some (a, w') ∧ (a.command o = none → Untouched w w') ∧
      (∀ cmd, a.command o = some cmd → ∃ op' obj' X', IsCmd cmd op' obj' X' ∧ Executed c w' op' obj' X') ∧
      (op = c.ops.setForce → op ≠ c.ops.setVelocity → a.command o ≠ none → less 0x41A00000 w'.force = false ∧
        less w'.force 0xC1A00000 = false) := by
  have hI := run_inv es inv_initial hes hrun
  obtain ⟨hf, hobj, harg⟩ := args_of h hop
  have hnull : ∃ a w', some (Answer.null, w) = some (a, w') ∧ (a.command o = none → Untouched w w') ∧
      (∀ cmd, a.command o = some cmd → ∃ op' obj' X', IsCmd cmd op' obj' X' ∧ Executed c w' op' obj' X') ∧
      (op = c.ops.setForce → op ≠ c.ops.setVelocity → a.command o ≠ none → less 0x41A00000 w'.force = false ∧
        less w'.force 0xC1A00000 = false) :=
    ⟨.null, w, rfl, fun _ => ⟨rfl, rfl, rfl, rfl, rfl, rfl, rfl⟩, fun cmd hc => (by cases hc), fun _ _ hc => absurd rfl hc⟩
  unfold eject
  rw [hf, if_neg hready]
  by_cases hv : op = c.ops.setVelocity
  · rw [if_pos hv]
    obtain ⟨x, hx⟩ := Option.isSome_iff_exists.mp (hX (.inl hv))
    have hax := harg x hx
    unfold setVelocity
    split
    · exact hnull
    · rw [hobj, Option.map_some]
      by_cases hb : w.ball.isNone
      · rw [if_pos hb]
        refine ⟨_, _, rfl, fun hc => (by cases hc), ?_, fun _ hc => absurd hv hc⟩
        intro cmd hc
        obtain rfl : o = cmd := Option.some.inj hc
        exact ⟨op, obj, X, h, .inl ⟨hv, rfl, x, hx, hax⟩⟩
      · rw [if_neg hb]
        by_cases hne : w.ball ≠ some obj
        · rw [if_pos hne]
          exact ⟨_, _, rfl, fun _ => ⟨rfl, rfl, rfl, rfl, rfl, rfl, rfl⟩, fun cmd hc => (by cases hc),
            fun _ hc => absurd hv hc⟩
        · rw [if_neg hne]
          refine ⟨_, _, rfl, fun hc => (by cases hc), ?_, fun _ hc => absurd hv hc⟩
          intro cmd hc
          obtain rfl : o = cmd := Option.some.inj hc
          exact ⟨op, obj, X, h, .inl ⟨hv, by simpa using hne, x, hx, hax⟩⟩
  · rw [if_neg hv]
    by_cases hfo : op = c.ops.setForce
    · rw [if_pos hfo]
      obtain ⟨x, hx⟩ := Option.isSome_iff_exists.mp (hX (.inr hfo))
      have hax := harg x hx
      have hput : ∀ w1 : World, w1.cartObj = some obj →
          ∃ a w', some (putForce c w1 (argument o)) = some (a, w') ∧ (a.command o = none → Untouched w w') ∧
          (∀ cmd, a.command o = some cmd → ∃ op' obj' X', IsCmd cmd op' obj' X' ∧ Executed c w' op' obj' X') ∧
          (op = c.ops.setForce → op ≠ c.ops.setVelocity → a.command o ≠ none → less 0x41A00000 w'.force = false ∧
            less w'.force 0xC1A00000 = false) := by
        intro w1 hw1
        unfold putForce
        split
        · rename_i hmax
          refine ⟨_, _, rfl, fun hc => (by cases hc), ?_, fun _ _ _ =>
            show less 0x41A00000 maxForce = false ∧ less maxForce 0xC1A00000 = false by decide +kernel⟩
          intro cmd hc
          obtain rfl := Option.some.inj hc
          rw [hw1]
          exact ⟨_, _, _, forced_is c obj maxForce, .inr (.inl ⟨rfl, rfl, _, rfl, show maxForce = asFloat (float maxForce) by decide⟩)⟩
        · split
          · refine ⟨_, _, rfl, fun hc => (by cases hc), ?_, fun _ _ _ =>
              show less 0x41A00000 minForce = false ∧ less minForce 0xC1A00000 = false by decide +kernel⟩
            intro cmd hc
            obtain rfl := Option.some.inj hc
            rw [hw1]
            exact ⟨_, _, _, forced_is c obj minForce, .inr (.inl ⟨rfl, rfl, _, rfl, show minForce = asFloat (float minForce) by decide⟩)⟩
          · rename_i h1 h2
            refine ⟨_, _, rfl, fun hc => (by cases hc), ?_, fun _ _ _ =>
              show less maxForce (argument o) = false ∧ less (argument o) minForce = false from
                ⟨by simpa using h1, by simpa using h2⟩⟩
            intro cmd hc
            obtain rfl : o = cmd := Option.some.inj hc
            exact ⟨op, obj, X, h, .inr (.inl ⟨hfo, hw1, x, hx, hax⟩)⟩
      unfold setForce
      split
      · exact hnull
      · rw [hobj, Option.map_some]
        by_cases hb : w.cartObj.isNone
        · rw [if_pos hb]
          exact hput _ rfl
        · rw [if_neg hb]
          by_cases hne : w.cartObj ≠ some obj
          · rw [if_pos hne]
            exact ⟨_, _, rfl, fun _ => ⟨rfl, rfl, rfl, rfl, rfl, rfl, rfl⟩, fun cmd hc => (by cases hc),
              fun _ _ hc => absurd rfl hc⟩
          · rw [if_neg hne]
            exact hput _ (by simpa using hne)
    · rw [if_neg hfo]
      by_cases hmv : op = c.ops.plus ∨ op = c.ops.minus
      · rw [if_pos (by simpa using hmv)]
        unfold move
        split
        · exact hnull
        · rw [hobj, Option.map_some, hf]
          -- the hand is `obj` and nothing is pending
          have hgo : ∀ w1 : World, w1.hand = some obj → w1.next = none → w1.place ≤ 9 → w1.place = w.place →
              ∃ a w', some (schedule c w1 now op) = some (a, w') ∧ (a.command o = none → Untouched w w') ∧
              (∀ cmd, a.command o = some cmd → ∃ op' obj' X', IsCmd cmd op' obj' X' ∧ Executed c w' op' obj' X') ∧
              (op = c.ops.setForce → op ≠ c.ops.setVelocity → a.command o ≠ none →
                less 0x41A00000 w'.force = false ∧ less w'.force 0xC1A00000 = false) := by
            intro w1 hh hn hp9 hp
            unfold schedule
            rw [if_neg (by rw [hn]; simp)]
            by_cases hpl : op = c.ops.plus
            · rw [if_pos hpl]
              refine ⟨_, _, rfl, fun hc => (by cases hc), ?_, fun hc => absurd hc hfo⟩
              intro cmd hc
              obtain rfl : o = cmd := Option.some.inj hc
              refine ⟨op, obj, X, h, .inr (.inr (.inl ⟨hpl, hh, ?_⟩))⟩
              dsimp only
              have := hplus hpl
              rw [if_pos (by omega)]
            · have hmi : op = c.ops.minus := by
                rcases hmv with hm | hm
                · exact absurd hm hpl
                · exact hm
              rw [if_neg hpl, if_pos hmi]
              refine ⟨_, _, rfl, fun hc => (by cases hc), ?_, fun hc => absurd hc hfo⟩
              intro cmd hc
              obtain rfl : o = cmd := Option.some.inj hc
              have := hminus hmi hpl
              refine ⟨op, obj, X, h, .inr (.inr (.inr ⟨hmi, hh, w1.place - 1, ?_, ?_⟩))⟩
              · dsimp only
                omega
              · dsimp only
                rw [if_pos (by omega)]
          by_cases hb : w.hand.isNone
          · rw [if_pos hb]
            obtain ⟨hp0, hn0⟩ := hI.1 (by simpa using hb)
            exact hgo { w with hand := some obj, place := 0 } rfl hn0 (by simp) hp0.symm
          · rw [if_neg hb]
            by_cases hne : w.hand ≠ some obj
            · rw [if_pos hne]
              exact hnull
            · rw [if_neg hne]
              cases hn : w.next with
              | none => exact hgo w (by simpa using hne) hn hI.2.1 rfl
              | some n =>
                have : schedule c w now op = (.null, w) := by
                  unfold schedule
                  rw [if_pos (by rw [hn]; rfl)]
                rw [this]
                exact hnull
      · rw [if_neg (by simpa using hmv)]
        exact hnull

/-- The configuration of an example: a sampling period of 0.1 s and a tolerance of 10 ms. -/
def c₀ : Cfg := ⟨⟨40, 41, 42, 43, 44, 45⟩, fun _ => true, true, 100000, 10000, 0⟩

/-- Some arithmetic. -/
def D₀ : Dyn := ⟨fun p _ _ => p, fun k _ => k⟩

/-- The command to execute function `op` on object 9. -/
def order (op : BitVec 16) (X : Word) : Obj :=
  ⟨[Atom.object 45 3, deviceFunction op, iPointer 4, one, Atom.set 2, rPointer 0, X], [some 9]⟩

theorem order_is (op : BitVec 16) (X : Word) : IsCmd (order op X) op 9 (some X) := by
  refine ⟨rfl, iPointer 4, rfl, ⟨rPointer 0, ?_, by decide, ?_⟩, ?_⟩
  all_goals first
    | rw [show (asIndex (iPointer 4)).toNat = 4 by decide]; rfl
    | rw [show (asIndex (rPointer 0)).toNat = 0 by decide]; rfl

/-- C104 is violated: at the first place the command to move down is answered as executed, though nothing is done; and
a function with opcode 299, which the device does not have, is executed as the one with opcode 43, the step up. -/
theorem C104_answers_violated : ¬ C104_full ∧
    eject c₀ initial 1000 (order 44 one) = some (.same, { initial with hand := some 9, lastCommand := 1000 }) ∧
    eject c₀ initial 1000 (order 299 one) =
      some (.same, { initial with hand := some 9, lastCommand := 1000, next := some 1 }) := by
  have he : eject c₀ initial 1000 (order 44 one) =
      some (.same, { initial with hand := some 9, lastCommand := 1000 }) := by decide +kernel
  refine ⟨fun hf => ?_, he, by decide +kernel⟩
  obtain ⟨a, w', h1, _, h2⟩ := hf c₀ D₀ [] [] initial (by intro o ho; cases ho) rfl 1000 (order 44 one) 44 9 _ (by decide)
    (order_is 44 one) (fun _ => rfl)
  rw [he] at h1
  obtain ⟨rfl, rfl⟩ := by simpa using h1
  obtain ⟨op', obj', X', hc, hx⟩ := h2 _ rfl
  rcases hx with ⟨_, hb, _⟩ | ⟨_, hb, _⟩ | ⟨_, _, hb⟩ | ⟨_, _, n, hb, _⟩
  · cases hb
  · cases hb
  · cases hb
  · cases hb

/-- A step up, a force of 30, of which 20 are put. -/
theorem C104_nonvacuous : NoNull (order 43 one) ∧ IsCmd (order 43 one) 43 9 (some one) ∧
    run c₀ D₀ initial [.eject 1000 (order 43 one)] =
      some ([.answer 1000 (order 43 one) .same], { initial with hand := some 9, lastCommand := 1000, next := some 1 }) ∧
    eject c₀ initial 1000 (order 42 (float 0x41F00000)) =
      some (.other (order 42 (float 0x41A00000)),
        { initial with cartObj := some 9, lastCommand := 1000, force := 0x41A00000 }) := by
  refine ⟨?_, order_is _ _, by decide +kernel, by decide +kernel⟩
  intro r hr
  obtain rfl : r = some 9 := by simpa [order] using hr
  rfl

/-! ## C105 -/

theorem reported_append (s : Shown) (l : List Shown) : reported (s :: l) = reported [s] ++ reported l := by
  simp [reported]

theorem walk_cons {a b : Nat} {l : List Nat} (h1 : a ≤ b + 1) (h2 : b ≤ a + 1) (h : Walk (b :: l)) : Walk (a :: b :: l) :=
  ⟨h1, h2, h⟩

theorem small_function {o : Obj} (hs : Small o) (q : BitVec 16) (hq : q.toNat < 256) :
    function o = q ↔ o.code[1]? = some (deviceFunction q) := by
  obtain ⟨op, hop, h⟩ := hs
  rw [function_of h hop]
  constructor
  · rintro rfl; exact h
  · intro h'
    have := function_of h' hq
    rw [function_of h hop] at this
    exact this

theorem run_count {c : Cfg} {D : Dyn} (hg : c.ops.Good) : ∀ (es : List Event) {w w' : World} {l : List Shown}, Inv w →
    (∀ o ∈ commands es, NoNull o ∧ Small o) → run c D w es = some (l, w') →
    Walk (w.place :: reported l) ∧ (∀ p ∈ reported l, p ≤ 9) ∧
      ((∀ l1 l2, l = l1 ++ l2 → 0 ≤ base w + count c l1 ∧ base w + count c l1 ≤ 9) → base w' = base w + count c l) := by
  intro es
  induction es with
  | nil =>
    intro w w' l hI _ h
    obtain ⟨rfl, rfl⟩ : [] = l ∧ w = w' := by simpa [run] using h
    exact ⟨trivial, by simp [reported], by simp [count]⟩
  | cons e es ih =>
    intro w w' l hI hn h
    cases e with
    | eject now o =>
      obtain ⟨a, w1, l1, he, hr, rfl⟩ := run_eject h
      rw [commands_eject] at hn
      obtain ⟨hno, hso⟩ := hn o (by simp)
      obtain ⟨i1, i2, i3, _, _⟩ := eject_spec hg hI hno he
      obtain ⟨j1, j2, j3⟩ := ih i1 (fun o' ho' => hn o' (by simp [ho'])) hr
      have hrep : reported (.answer now o a :: l1) = reported l1 := rfl
      rw [hrep]
      refine ⟨by rw [← i2]; exact j1, j2, ?_⟩
      intro hpre
      have h1 := hpre [.answer now o a] l1 rfl
      have hmv : moved c (function o) a (base w) = step c (.answer now o a) := by
        have hp := small_function hso c.ops.plus hg.1.2.2.2.1
        have hm := small_function hso c.ops.minus hg.1.2.2.2.2
        have h1' : 0 ≤ base w + step c (.answer now o a) ∧ base w + step c (.answer now o a) ≤ 9 := by
          simpa [count] using h1
        unfold moved
        simp only [step] at h1' ⊢
        by_cases ha : a = .null
        · rw [if_pos ha, if_pos ha]
        · rw [if_neg ha, if_neg ha]
          rw [if_neg ha] at h1'
          by_cases hfp : function o = c.ops.plus
          · rw [if_pos hfp, if_pos (hp.mp hfp)]
            rw [if_pos (hp.mp hfp)] at h1'
            rw [if_pos (by omega)]
          · rw [if_neg hfp, if_neg (fun hh => hfp (hp.mpr hh))]
            rw [if_neg (fun hh => hfp (hp.mpr hh))] at h1'
            by_cases hfm : function o = c.ops.minus
            · rw [if_pos hfm, if_pos (hm.mp hfm)]
              rw [if_pos (hm.mp hfm)] at h1'
              rw [if_pos (by omega)]
            · rw [if_neg hfm, if_neg (fun hh => hfm (hm.mpr hh))]
      rw [hmv] at i3
      have hc : ∀ l', count c (.answer now o a :: l') = step c (.answer now o a) + count c l' := by
        intro l'; simp [count]
      rw [j3 (fun l2 l3 hl => by
        have := hpre (.answer now o a :: l2) l3 (by rw [hl]; rfl)
        rw [hc] at this
        omega), i3, hc]
      omega
    | tick now =>
      obtain ⟨l1, hr, rfl⟩ := run_tick h
      rw [commands_tick] at hn
      obtain ⟨t1, t2, _, _, _, t6⟩ := tick_spec c D w now hI
      obtain ⟨j1, j2, j3⟩ := ih t1 hn hr
      have hrep : reported (.injected now (tick c D w now).1 :: l1) =
          (tick c D w now).1.filterMap placeOf ++ reported l1 := by simp [reported]
      have hc : ∀ l', count c (.injected now (tick c D w now).1 :: l') = count c l' := by
        intro l'; simp [count, step]
      rw [hrep]
      refine ⟨?_, ?_, ?_⟩
      · rcases t6 with ⟨h1, h2⟩ | ⟨h1, h2, h3⟩
        · rw [h1, ← h2]; exact j1
        · rw [h1]; exact walk_cons h2 h3 j1
      · intro p hp
        rcases t6 with ⟨h1, h2⟩ | ⟨h1, h2, h3⟩
        · rw [h1] at hp; exact j2 p hp
        · rw [h1] at hp
          rcases List.mem_append.mp hp with hp | hp
          · obtain rfl : p = (tick c D w now).2.place := by simpa using hp
            exact t1.2.1
          · exact j2 p hp
      · intro hpre
        rw [hc, j3 (fun l2 l3 hl => by
          have := hpre (.injected now (tick c D w now).1 :: l2) l3 (by rw [hl]; rfl)
          rw [hc] at this
          rw [t2]
          exact this), t2]

/-- The history consists of ticks, in the order of time. -/
def Ticks : List Event → Prop
  | [] => True
  | e :: es => (∃ t, e = .tick t ∧ ∀ e' ∈ es, ∃ t', e' = .tick t' ∧ t ≤ t') ∧ Ticks es

theorem ticks_place {c : Cfg} {D : Dyn} (old new : Nat) : ∀ (es : List Event) {w w' : World} {l : List Shown}, Ticks es →
    run c D w es = some (l, w') →
    ((w.place = old ∧ w.next = some new) ∨ (w.place = new ∧ w.next = none ∧
      ∀ t, .tick t ∈ es → t ≥ w.lastCommand + (c.period * 4).tdiv 10)) →
    ∀ now out, .injected now out ∈ l → ∀ h p a b, Out.place h p a b ∈ out →
      p = if now ≥ w.lastCommand + (c.period * 4).tdiv 10 then new else old := by
  intro es
  induction es with
  | nil =>
    intro w w' l _ h _ now out hm
    obtain ⟨rfl, rfl⟩ : [] = l ∧ w = w' := by simpa [run] using h
    cases hm
  | cons e es ih =>
    intro w w' l ht h hst now out hm hh p a b ho
    obtain ⟨⟨t, rfl, hle⟩, ht⟩ := ht
    obtain ⟨l1, hr, rfl⟩ := run_tick h
    have hlast : ∀ t', .tick t' ∈ es → t ≤ t' := by
      intro t' hm'
      obtain ⟨t'', he, hle'⟩ := hle _ hm'
      injection he with he
      omega
    -- the state after the tick
    have hnext : (tick c D w t).2.lastCommand = w.lastCommand ∧
        (((tick c D w t).2.place = old ∧ (tick c D w t).2.next = some new) ∨
          ((tick c D w t).2.place = new ∧ (tick c D w t).2.next = none ∧
            ∀ t', .tick t' ∈ es → t' ≥ w.lastCommand + (c.period * 4).tdiv 10)) ∧
        ∀ h p a b, Out.place h p a b ∈ (tick c D w t).1 →
          p = if t ≥ w.lastCommand + (c.period * 4).tdiv 10 then new else old := by
      by_cases hn : t ≤ w.last + (c.period * 8).tdiv 10
      · have : tick c D w t = ([], w) := by unfold tick; rw [if_pos hn]
        rw [this]
        refine ⟨rfl, ?_, by simp⟩
        rcases hst with hst | ⟨s1, s2, s3⟩
        · exact .inl hst
        · exact .inr ⟨s1, s2, fun t' hm' => s3 t' (by simp [hm'])⟩
      · obtain ⟨w2, k1, k2, he, hs, _, _, hl, hp1, hp2, _, _⟩ := tick_eq c D w t hn
        rw [he]
        have hnone : ∀ (k : List Out), k.filterMap placeOf = [] → ∀ h p a b, Out.place h p a b ∉ k := by
          intro k hk h p a b hmem
          have : p ∈ k.filterMap placeOf := List.mem_filterMap.mpr ⟨_, hmem, rfl⟩
          rw [hk] at this
          cases this
        cases hhand : w2.hand with
        | none =>
          have : tickHand c w2 t = ([], w2) := by unfold tickHand; rw [hhand]
          rw [this]
          refine ⟨hl, ?_, ?_⟩
          · rw [hs.2.1, hs.2.2]
            rcases hst with hst | ⟨s1, s2, s3⟩
            · exact .inl hst
            · exact .inr ⟨s1, s2, fun t' hm' => s3 t' (by simp [hm'])⟩
          · intro h p a b hmem
            simp only [List.append_nil, List.mem_append] at hmem
            rcases hmem with hmem | hmem
            · exact absurd hmem (hnone k1 hp1 h p a b)
            · exact absurd hmem (hnone k2 hp2 h p a b)
        | some hd =>
          have hset : (settle c w2 t).lastCommand = w.lastCommand ∧
              (settle c w2 t).place = (if t ≥ w.lastCommand + (c.period * 4).tdiv 10 then new else old) ∧
              (((settle c w2 t).place = old ∧ (settle c w2 t).next = some new) ∨
                ((settle c w2 t).place = new ∧ (settle c w2 t).next = none ∧
                  t ≥ w.lastCommand + (c.period * 4).tdiv 10)) := by
            unfold settle
            rcases hst with ⟨s1, s2⟩ | ⟨s1, s2, s3⟩
            · rw [hs.2.2, s2]
              dsimp only
              rw [hl]
              split
              · rename_i hge
                exact ⟨rfl, rfl, .inr ⟨rfl, rfl, hge⟩⟩
              · exact ⟨hl, by rw [hs.2.1, s1], .inl ⟨by rw [hs.2.1, s1], by rw [hs.2.2, s2]⟩⟩
            · rw [hs.2.2, s2]
              have := s3 t (by simp)
              exact ⟨hl, by rw [if_pos this]; exact hs.2.1.trans s1, .inr ⟨hs.2.1.trans s1, hs.2.2.trans s2, this⟩⟩
          obtain ⟨q1, q2, q3⟩ := hset
          have hst' : ((settle c w2 t).place = old ∧ (settle c w2 t).next = some new) ∨
              ((settle c w2 t).place = new ∧ (settle c w2 t).next = none ∧
                ∀ t', .tick t' ∈ es → t' ≥ w.lastCommand + (c.period * 4).tdiv 10) := by
            rcases q3 with q3 | ⟨u1, u2, u3⟩
            · exact .inl q3
            · exact .inr ⟨u1, u2, fun t' hm' => by have := hlast t' hm'; omega⟩
          have hmems : ∀ (k : List Out) h p a b, Out.place h p a b ∈ k1 ++ k2 ++ k → Out.place h p a b ∈ k := by
            intro k h p a b hmem
            simp only [List.mem_append] at hmem
            rcases hmem with (hmem | hmem) | hmem
            · exact absurd hmem (hnone k1 hp1 h p a b)
            · exact absurd hmem (hnone k2 hp2 h p a b)
            · exact hmem
          rw [tickHand_eq c w2 t hd hhand]
          split
          · refine ⟨q1, hst', ?_⟩
            intro h p a b hmem
            have := hmems _ h p a b hmem
            simp only [List.mem_cons, List.not_mem_nil, or_false, reduceCtorEq] at this
            injection this with _ hp
            rw [hp]; exact q2
          · refine ⟨q1, hst', ?_⟩
            intro h p a b hmem
            have := hmems _ h p a b hmem
            simp only [List.mem_cons, List.not_mem_nil, or_false] at this
            injection this with _ hp
            rw [hp]; exact q2
    obtain ⟨n1, n2, n3⟩ := hnext
    rcases List.mem_cons.mp hm with hm | hm
    · injection hm with h1 h2
      subst h1 h2
      exact n3 hh p a b ho
    · have := ih ht hr (by rw [n1]; exact n2) now out hm hh p a b ho
      rw [n1] at this
      exact this

/-- C105, the part that holds (missing: histories in which commands beyond the first or last place are accepted, and
moves during which another command is sent). First: the places reported follow each other without a leap, whatever is
done. Second: if the accepted steps never lead below the first or above the last place, the hand is where they put it.
Third: after an accepted step at time `t`, all ticks until four tenths of a sampling period report the old place and all
later ones the new place. -/
theorem C105_hand_partial (c : Cfg) (D : Dyn) (es : List Event) (l : List Shown) (w : World) (hg : c.ops.Good)
    (hes : ∀ o ∈ commands es, NoNull o ∧ Small o) (hrun : run c D initial es = some (l, w)) :
    Walk (0 :: reported l) ∧ (∀ p ∈ reported l, p ≤ 9) ∧
    ((∀ l1 l2, l = l1 ++ l2 → 0 ≤ count c l1 ∧ count c l1 ≤ 9) →
      ((w.next.getD w.place : Nat) : Int) = count c l) ∧
    (∀ (t : Int) (o : Obj) (w1 : World) (n : Nat), NoNull o → eject c w t o = some (.same, w1) → w.next = none →
      w1.next = some n → ∀ (ts : List Event) (l' : List Shown) (w' : World), Ticks ts → run c D w1 ts = some (l', w') →
      (n = w.place + 1 ∨ n + 1 = w.place) ∧
      ∀ now out, .injected now out ∈ l' → ∀ h p a b, Out.place h p a b ∈ out →
        p = if now ≥ t + (c.period * 4).tdiv 10 then n else w.place) := by
  obtain ⟨h1, h2, h3⟩ := run_count hg es inv_initial hes hrun
  have hI := run_inv es inv_initial (fun o ho => (hes o ho).1) hrun
  have hb0 : base initial = 0 := rfl
  simp only [hb0, Int.zero_add] at h3
  refine ⟨h1, h2, h3, ?_⟩
  intro t o w1 n hno he hwn hn ts l' w' hts hr
  obtain ⟨i1, i2, _, _, _⟩ := eject_spec hg hI hno he
  have hlc : w1.lastCommand = t := by
    unfold eject at he
    split at he
    · have := (ready_spec he).1.2.2
      rw [hn, hwn] at this
      cases this
    · split at he
      · have := (setVelocity_spec he).1.2.2
        rw [hn, hwn] at this
        cases this
      · split at he
        · have := (setForce_spec he).1.2.2
          rw [hn, hwn] at this
          cases this
        · split at he
          · rename_i hf
            have hf : function o = c.ops.plus ∨ function o = c.ops.minus := by simpa using hf
            have hsch : ∀ w2 : World, w2.next = none → schedule c w2 t (function o) = (.same, w1) →
                w1.lastCommand = t := by
              intro w2 hw2 hs
              unfold schedule at hs
              rw [if_neg (by rw [hw2]; simp)] at hs
              split at hs
              · rw [← (Prod.mk.inj hs).2]
              · split at hs <;> rw [← (Prod.mk.inj hs).2]
            unfold move at he
            split at he
            · simp at he
            · obtain ⟨obj, _, he⟩ := Option.map_eq_some_iff.mp he
              split at he
              · exact hsch { w with hand := obj, place := 0 } hwn he
              · split at he
                · simp at he
                · exact hsch _ hwn he
          · simp at he
  refine ⟨by rw [← i2]; exact (i1.2.2 n hn).2, ?_⟩
  have := ticks_place (D := D) w.place n ts hts hr (.inl ⟨i2, hn⟩)
  rw [hlc] at this
  exact this

/-- C105 is violated: at the first place a step down is accepted, and a step up then leads to the second place although
the accepted steps amount to none. Besides, another command delays a step that was accepted: here the step up of time
200000 is not done at the tick 0.1 s later, because of a command for the ball. -/
theorem C105_hand_violated : ¬ C105_full ∧
    run c₀ D₀ initial [.eject 200000 (order 43 one), .eject 290000 (order 41 one), .tick 300000] =
      some ([.answer 200000 (order 43 one) .same, .answer 290000 (order 41 one) .same,
        .injected 300000 [.number 9 .velocityY one 300000 400000 .hold, .number 9 .positionY 0 300000 400000 .periodic,
          .place 9 0 300000 400000, .goal 9 43 420000 500000 420000 400000]],
        { initial with
          ball := some 9, velocity := 0x3F800000, hand := some 9, next := some 1, lastCommand := 290000,
          last := 300000, babble := 1 }) := by
  refine ⟨fun hf => ?_, by decide +kernel⟩
  have hr : run c₀ D₀ initial [.eject 1000 (order 44 one)] =
      some ([.answer 1000 (order 44 one) .same], { initial with hand := some 9, lastCommand := 1000 }) := by
    decide +kernel
  have := (hf c₀ D₀ _ _ _ (by unfold Ops.Good; decide) (fun o ho => by
    obtain rfl : o = order 44 one := by simpa [commands] using ho
    refine ⟨fun r hr' => ?_, 44, by decide, rfl⟩
    obtain rfl : r = some 9 := by simpa [order] using hr'
    rfl) hr).1
  revert this
  decide +kernel

/-- Two steps up with a tick after each. -/
theorem C105_nonvacuous : c₀.ops.Good ∧ NoNull (order 43 one) ∧ Small (order 43 one) ∧
    ∃ l w, run c₀ D₀ initial [.eject 1000 (order 43 one), .tick 100000, .eject 110000 (order 43 one), .tick 200000] =
      some (l, w) ∧ reported l = [1, 2] ∧ count c₀ l = 2 ∧ w.place = 2 := by
  refine ⟨by unfold Ops.Good; decide, ?_, ⟨43, by decide, rfl⟩, _, _, rfl, by decide +kernel, by decide +kernel,
    by decide +kernel⟩
  intro r hr
  obtain rfl : r = some 9 := by simpa [order] using hr
  rfl

/-! ## C106 -/

theorem foldl_velocity {c : Cfg} {D : Dyn} (hg : c.ops.Good) : ∀ (es : List Event) {w w' : World} {l : List Shown}
    (v : Option (BitVec 32)) (f : Option (BitVec 32)), Inv w → (∀ o ∈ commands es, NoNull o ∧ Small o) →
    run c D w es = some (l, w') → (∀ x, v = some x → w.velocity = x) → (∀ x, f = some x → w.force = x) →
    (∀ x, l.foldl (fun v s => match s with
      | .answer _ o a =>
        if a ≠ .null ∧ o.code[1]? = some (deviceFunction c.ops.setVelocity) then some (argument o) else v
      | .injected _ _ => v) v = some x → w'.velocity = x) ∧
    (∀ x, l.foldl (fun v s => match s with
      | .answer _ o a =>
        if a ≠ .null ∧ o.code[1]? = some (deviceFunction c.ops.setForce) then
          some (if less 0x41A00000 (argument o) then 0x41A00000 else if less (argument o) 0xC1A00000 then 0xC1A00000
            else argument o)
        else v
      | .injected _ _ => v) f = some x → w'.force = x) := by
  intro es
  induction es with
  | nil =>
    intro w w' l v f hI _ h hv hf
    obtain ⟨rfl, rfl⟩ : [] = l ∧ w = w' := by simpa [run] using h
    exact ⟨hv, hf⟩
  | cons e es ih =>
    intro w w' l v f hI hn h hv hf
    cases e with
    | eject now o =>
      obtain ⟨a, w1, l1, he, hr, rfl⟩ := run_eject h
      rw [commands_eject] at hn
      obtain ⟨hno, hso⟩ := hn o (by simp)
      obtain ⟨i1, _, _, i4, i5⟩ := eject_spec hg hI hno he
      rw [List.foldl_cons, List.foldl_cons]
      refine ih _ _ i1 (fun o' ho' => hn o' (by simp [ho'])) hr ?_ ?_
      · intro x hx
        dsimp only at hx
        simp only [small_function hso c.ops.setVelocity hg.1.2.1] at i4
        rw [i4]
        split at hx
        · rename_i hc; rw [if_pos hc]; exact Option.some.inj hx
        · rename_i hc; rw [if_neg hc]; exact hv x hx
      · intro x hx
        dsimp only at hx
        simp only [small_function hso c.ops.setForce hg.1.2.2.1] at i5
        rw [i5]
        split at hx
        · rename_i hc; rw [if_pos hc]; exact Option.some.inj hx
        · rename_i hc; rw [if_neg hc]; exact hf x hx
    | tick now =>
      obtain ⟨l1, hr, rfl⟩ := run_tick h
      rw [commands_tick] at hn
      obtain ⟨t1, _, t3, t4, _⟩ := tick_spec c D w now hI
      rw [List.foldl_cons, List.foldl_cons]
      exact ih _ _ t1 hn hr (fun x hx => by rw [t3]; exact hv x hx) (fun x hx => by rw [t4]; exact hf x hx)

theorem tickBall_due (c : Cfg) (D : Dyn) (w : World) (now : Int) :
    (∀ b, w.ball = some b → .number b .velocityY (float w.velocity) now (now + c.period) .hold ∈ (tickBall c D w now).1 ∧
      ∃ x, .number b .positionY x now (now + c.period) .periodic ∈ (tickBall c D w now).1) ∧
    (w.ball = none → (tickBall c D w now).1 = []) ∧ (∀ b x s e y, .number b .forceY x s e y ∉ (tickBall c D w now).1) ∧
    (∀ h p s e, .place h p s e ∉ (tickBall c D w now).1) ∧ (tickBall c D w now).2.cartObj = w.cartObj ∧
    (tickBall c D w now).2.last = (if (tickBall c D w now).1 = [] then w.last else now) := by
  unfold tickBall
  cases h : w.ball with
  | none => simp
  | some b => simp

theorem tickCart_due (c : Cfg) (D : Dyn) (w : World) (now : Int) :
    (∀ b, w.cartObj = some b → .number b .forceY (float w.force) now (now + c.period) .periodic ∈ (tickCart c D w now).1 ∧
      ∀ a, a = .velocityY ∨ a = .positionY ∨ a = .thetaY ∨ a = .omegaY →
        ∃ x, .number b a x now (now + c.period) .periodic ∈ (tickCart c D w now).1) ∧
    (w.cartObj = none → (tickCart c D w now).1 = []) ∧
    (∀ b a x s e, .number b a x s e .hold ∉ (tickCart c D w now).1) ∧
    (∀ h p s e, .place h p s e ∉ (tickCart c D w now).1) ∧
    (tickCart c D w now).2.last = (if (tickCart c D w now).1 = [] then w.last else now) := by
  unfold tickCart
  cases h : w.cartObj with
  | none => simp
  | some b =>
    dsimp only
    refine ⟨?_, by simp, by simp, by simp, by simp⟩
    intro b' hb
    obtain rfl : b = b' := Option.some.inj hb
    refine ⟨by simp, ?_⟩
    intro a ha
    rcases ha with rfl | rfl | rfl | rfl
    · exact ⟨_, List.mem_cons_of_mem _ (List.mem_cons_self ..)⟩
    · exact ⟨_, List.mem_cons_of_mem _ (List.mem_cons_of_mem _ (List.mem_cons_self ..))⟩
    · exact ⟨_, List.mem_cons_of_mem _ (List.mem_cons_of_mem _ (List.mem_cons_of_mem _ (List.mem_cons_self ..)))⟩
    · exact ⟨_, List.mem_cons_of_mem _ (List.mem_cons_of_mem _ (List.mem_cons_of_mem _ (List.mem_cons_of_mem _
        (List.mem_cons_self ..))))⟩

theorem tickHand_due (c : Cfg) (w : World) (now : Int) :
    (∀ h, w.hand = some h → .place h (tickHand c w now).2.place now (now + c.period) ∈ (tickHand c w now).1 ∧
      (now - c.ref < 3700000 → ∃ op ca cb s e, .goal h op ca cb s e ∈ (tickHand c w now).1)) ∧
    (w.hand = none → (tickHand c w now).1 = []) ∧
    (∀ b a x s e y, .number b a x s e y ∉ (tickHand c w now).1) ∧
    (tickHand c w now).2.last = (if (tickHand c w now).1 = [] then w.last else now) := by
  cases hh : w.hand with
  | none =>
    have e3 : tickHand c w now = ([], w) := by unfold tickHand; rw [hh]
    rw [e3]
    simp
  | some h =>
    rw [tickHand_eq c w now h hh]
    split
    · refine ⟨?_, by simp, by simp, by simp⟩
      intro h' e
      obtain rfl : h = h' := Option.some.inj e
      exact ⟨by simp, fun _ => ⟨_, _, _, _, _, List.mem_cons_of_mem _ (List.mem_cons_self ..)⟩⟩
    · rename_i hr
      refine ⟨?_, by simp, by simp, by simp⟩
      intro h' e
      obtain rfl : h = h' := Option.some.inj e
      exact ⟨by simp, fun hr' => absurd hr' hr⟩

theorem tick_due (c : Cfg) (D : Dyn) (w : World) (now : Int) (hn : ¬ now ≤ w.last + (c.period * 8).tdiv 10) :
    Due c w now (tick c D w now).1 (tick c D w now).2.place := by
  obtain ⟨a1, a2, a3, a4, a5, _⟩ := tickBall_due c D w now
  obtain ⟨⟨s1, _, _⟩, _, a6, _⟩ := tickBall_spec c D w now
  obtain ⟨b1, b2, b3, b4, _⟩ := tickCart_due c D (tickBall c D w now).2 now
  obtain ⟨⟨s2, _, _⟩, _⟩ := tickCart_spec c D (tickBall c D w now).2 now
  obtain ⟨d1, d2, d3, _⟩ := tickHand_due c (tickCart c D (tickBall c D w now).2 now).2 now
  rw [a5, a6] at b1
  rw [a5] at b2
  rw [s2, s1] at d1 d2
  unfold tick
  rw [if_neg hn]
  refine ⟨?_, ?_, ?_, ?_, ?_, ?_⟩
  · intro b hb
    obtain ⟨h1, x, h2⟩ := a1 b hb
    exact ⟨by simp [h1], x, by simp [h2]⟩
  · intro b hb
    obtain ⟨h1, h2⟩ := b1 b hb
    refine ⟨by simp [h1], ?_⟩
    intro a ha
    obtain ⟨x, h3⟩ := h2 a ha
    exact ⟨x, by simp [h3]⟩
  · intro h hh
    obtain ⟨h1, h2⟩ := d1 h hh
    refine ⟨by simp [h1], ?_⟩
    intro hr
    obtain ⟨op, ca, cb, s, e, h3⟩ := h2 hr
    exact ⟨op, ca, cb, s, e, by simp [h3]⟩
  · intro hb b x s e
    simp only [List.mem_append, not_or]
    exact ⟨⟨by simp [a2 hb], b3 _ _ _ _ _⟩, d3 _ _ _ _ _ _⟩
  · intro hb b x s e
    simp only [List.mem_append, not_or]
    exact ⟨⟨a3 _ _ _ _ _, by simp [b2 hb]⟩, d3 _ _ _ _ _ _⟩
  · intro hb b x s e
    simp only [List.mem_append, not_or]
    exact ⟨⟨a4 _ _ _ _, b4 _ _ _ _⟩, by simp [d2 hb]⟩

theorem tick_last (c : Cfg) (D : Dyn) (w : World) (now : Int) :
    (tick c D w now).2.last = if (tick c D w now).1 = [] then w.last else now := by
  unfold tick
  split
  · rfl
  · obtain ⟨_, _, _, _, _, h1⟩ := tickBall_due c D w now
    obtain ⟨_, _, _, _, h2⟩ := tickCart_due c D (tickBall c D w now).2 now
    obtain ⟨_, _, _, h3⟩ := tickHand_due c (tickCart c D (tickBall c D w now).2 now).2 now
    rw [h1] at h2
    rw [h2] at h3
    dsimp only
    rw [h3]
    by_cases e1 : (tickBall c D w now).1 = [] <;>
      by_cases e2 : (tickCart c D (tickBall c D w now).2 now).1 = [] <;>
      by_cases e3 : (tickHand c (tickCart c D (tickBall c D w now).2 now).2 now).1 = [] <;> simp [e1, e2, e3]

theorem eject_last {c : Cfg} {w w' : World} {now : Int} {o : Obj} {a : Answer} (h : eject c w now o = some (a, w')) :
    w'.last = w.last := by
  unfold eject at h
  split at h
  · simp only [ready] at h
    split at h
    · obtain ⟨s, _, h⟩ := Option.map_eq_some_iff.mp h
      cases hr : readyObject o with
      | none =>
        rw [hr] at h
        split_ifs at h <;> (obtain ⟨_, rfl⟩ := by simpa using h) <;> rfl
      | some obj =>
        rw [hr] at h
        dsimp only at h
        split_ifs at h <;> (obtain ⟨_, rfl⟩ := by simpa using h) <;> rfl
    · obtain ⟨_, rfl⟩ := by simpa using h
      rfl
  · split at h
    · unfold setVelocity at h
      split at h
      · obtain ⟨_, rfl⟩ := by simpa using h
        rfl
      · obtain ⟨obj, _, h⟩ := Option.map_eq_some_iff.mp h
        split_ifs at h <;> (obtain ⟨_, rfl⟩ := by simpa using h) <;> rfl
    · split at h
      · unfold setForce at h
        split at h
        · obtain ⟨_, rfl⟩ := by simpa using h
          rfl
        · obtain ⟨obj, _, h⟩ := Option.map_eq_some_iff.mp h
          unfold putForce at h
          split_ifs at h <;> (obtain ⟨_, rfl⟩ := by simpa using h) <;> rfl
      · split at h
        · unfold move at h
          split at h
          · obtain ⟨_, rfl⟩ := by simpa using h
            rfl
          · obtain ⟨obj, _, h⟩ := Option.map_eq_some_iff.mp h
            unfold schedule at h
            split_ifs at h <;> (obtain ⟨_, rfl⟩ := by simpa using h) <;> rfl
        · obtain ⟨_, rfl⟩ := by simpa using h
          rfl

theorem run_last {c : Cfg} {D : Dyn} : ∀ (es : List Event) {w w' : World} {l : List Shown},
    run c D w es = some (l, w') → w'.last = l.foldl (fun t s => match s with
      | .injected now out => if out = [] then t else now
      | .answer _ _ _ => t) w.last := by
  intro es
  induction es with
  | nil =>
    intro w w' l h
    obtain ⟨rfl, rfl⟩ : [] = l ∧ w = w' := by simpa [run] using h
    rfl
  | cons e es ih =>
    intro w w' l h
    cases e with
    | eject now o =>
      obtain ⟨a, w1, l1, he, hr, rfl⟩ := run_eject h
      rw [ih hr, List.foldl_cons, eject_last he]
    | tick now =>
      obtain ⟨l1, hr, rfl⟩ := run_tick h
      rw [ih hr, List.foldl_cons, tick_last]

/-- C106, the part that holds (missing: the goals injected while babbling, which end before they begin). All values are
injected for the sampling period from now on; the goals, injected only in the first 3.7 s, are for a command in the next
period, up at the first place and down at the last. The velocity and the force reported are those of the commands last
accepted. All that is due is injected if the last time was more than eight tenths of a period ago, else nothing. -/
theorem C106_injected_partial (c : Cfg) (D : Dyn) (es : List Event) (l : List Shown) (w : World) (now : Int)
    (hg : c.ops.Good) (hp : 0 < c.period) (ht : 2 * c.tol ≤ c.period) (hes : ∀ o ∈ commands es, NoNull o ∧ Small o)
    (hrun : run c D initial es = some (l, w)) :
    (now ≤ lastShown l + (c.period * 8).tdiv 10 → (tick c D w now).1 = []) ∧
    (lastShown l + (c.period * 8).tdiv 10 < now → Due c w now (tick c D w now).1 (tick c D w now).2.place) ∧
    ∀ out ∈ (tick c D w now).1,
      (out.after = now ∧ out.before = now + c.period ∧ out.after ≤ out.before ∧
        (∀ b x s e, out = .number b .velocityY x s e .hold → ∀ v, velocitySet c l = some v → x = float v) ∧
        (∀ b x s e, out = .number b .forceY x s e .periodic → ∀ v, forceSet c l = some v → x = float v)) ∨
      (∃ h op ca cb s e, out = .goal h op ca cb s e ∧ now - c.ref < 3700000 ∧ now + c.period + 2 * c.tol = ca ∧ ca ≤ cb ∧
        cb = now + 2 * c.period ∧ ((tick c D w now).2.place = 0 → op = c.ops.plus) ∧
        ((tick c D w now).2.place = 9 → op = c.ops.minus)) := by
  have hlast : w.last = lastShown l := run_last es hrun
  refine ⟨fun hle => ?_, fun hlt => tick_due c D w now (by rw [hlast]; omega), ?_⟩
  · unfold tick
    rw [hlast, if_pos hle]
  intro out ho
  have hI := run_inv es inv_initial (fun o ho => (hes o ho).1) hrun
  obtain ⟨hv, hf⟩ := foldl_velocity hg es none none inv_initial hes hrun (fun x hx => by cases hx) (fun x hx => by cases hx)
  by_cases hn : now ≤ w.last + (c.period * 8).tdiv 10
  · have : tick c D w now = ([], w) := by unfold tick; rw [if_pos hn]
    rw [this] at ho
    cases ho
  · obtain ⟨w2, l1, l2, he, hs, _, _, _, _, _, m1, m2⟩ := tick_eq c D w now hn
    rw [he] at ho ⊢
    rcases List.mem_append.mp ho with ho | ho
    · rcases List.mem_append.mp ho with ho | ho
      · obtain ⟨b, x, s, h | ⟨h, hne⟩⟩ := m1 out ho
        · refine .inl ⟨by rw [h]; rfl, by rw [h]; rfl, by rw [h]; show now ≤ now + c.period; omega, ?_, ?_⟩
          · intro b' x' s' e' h' v hset
            rw [h] at h'
            injection h' with _ _ hx
            rw [← hx, hv v hset]
          · intro b' x' s' e' h' v hset
            rw [h] at h'
            cases h'
        · refine .inl ⟨by rw [h]; rfl, by rw [h]; rfl, by rw [h]; show now ≤ now + c.period; omega, ?_, ?_⟩
          · intro b' x' s' e' h' v hset
            rw [h] at h'
            cases h'
          · intro b' x' s' e' h' v hset
            rw [h] at h'
            cases h'
      · obtain ⟨b, at_, x, h, hforce⟩ := m2 out ho
        refine .inl ⟨by rw [h]; rfl, by rw [h]; rfl, by rw [h]; show now ≤ now + c.period; omega, ?_, ?_⟩
        · intro b' x' s' e' h' v hset
          rw [h] at h'
          cases h'
        · intro b' x' s' e' h' v hset
          rw [h] at h'
          injection h' with _ ha hx
          rw [← hx, hforce ha, hf v hset]
    · obtain ⟨_, _, _, _, _, _, t7⟩ := tickHand_spec c w2 now (inv_of_same hs hI)
      obtain ⟨h, ⟨p, hp'⟩ | ⟨hr, op, ho', h0, h9⟩⟩ := t7 out ho
      · refine .inl ⟨by rw [hp']; rfl, by rw [hp']; rfl, by rw [hp']; show now ≤ now + c.period; omega, ?_, ?_⟩
        · intro b' x' s' e' h' v hset
          rw [hp'] at h'
          cases h'
        · intro b' x' s' e' h' v hset
          rw [hp'] at h'
          cases h'
      · exact .inr ⟨h, op, _, _, _, _, ho', hr, rfl, by omega, rfl, h0, h9⟩

/-- C106 is violated: the goal injected at the first tick begins after it ends. -/
theorem C106_injected_violated : ¬ C106_full ∧
    (tick c₀ D₀ { initial with hand := some 9, lastCommand := 1000, next := some 1 } 100000).1 =
      [.place 9 1 100000 200000, .goal 9 43 220000 300000 220000 200000] := by
  have he : (tick c₀ D₀ { initial with hand := some 9, lastCommand := 1000, next := some 1 } 100000).1 =
      [.place 9 1 100000 200000, .goal 9 43 220000 300000 220000 200000] := by decide +kernel
  refine ⟨fun hf => ?_, he⟩
  have := hf c₀ D₀ _ _ _ 100000 (by decide) (by decide) (by decide) C104_nonvacuous.2.2.1
    (.goal 9 43 220000 300000 220000 200000) (by rw [he]; simp)
  exact absurd this (by decide)

/-- A ball set to move at 1, a cart with a force of 30, of which 20 are put: both are reported at the next tick. -/
theorem C106_nonvacuous : c₀.ops.Good ∧ 0 < c₀.period ∧ 2 * c₀.tol ≤ c₀.period ∧
    ∃ l w, run c₀ D₀ initial [.eject 1000 (order 41 one), .eject 2000 (order 42 (float 0x41F00000))] = some (l, w) ∧
      velocitySet c₀ l = some 0x3F800000 ∧ forceSet c₀ l = some 0x41A00000 ∧
      Out.number 9 .velocityY one 100000 200000 .hold ∈ (tick c₀ D₀ w 100000).1 ∧
      Out.number 9 .forceY (float 0x41A00000) 100000 200000 .periodic ∈ (tick c₀ D₀ w 100000).1 := by
  refine ⟨by unfold Ops.Good; decide, by decide, by decide, _, _, rfl, by decide +kernel, by decide +kernel,
    by decide +kernel, by decide +kernel⟩

end Verif.TestWorld
