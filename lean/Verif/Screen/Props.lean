import Verif.Screen.Spec
import Verif.Observe.Props
/-!
# Proofs of C107 and C108
-/
namespace Verif.Screen
open Verif.Atom Verif.Observe

/-- All the displacements there can be, as numbers. -/
theorem displacement : ∀ n : Fin 123, Num (float (ofInt ((n : Int) - 61))) (((n : Int) - 61) * unit) := by
  unfold Num
  decide +kernel

theorem num_ofInt (n : Int) (h1 : -61 ≤ n) (h2 : n ≤ 61) : Num (float (ofInt n)) (n * unit) := by
  have := displacement ⟨(n + 61).toNat, by omega⟩
  rwa [show (((⟨(n + 61).toNat, by omega⟩ : Fin 123) : Nat) : Int) - 61 = n by
    show ((n + 61).toNat : Int) - 61 = n
    omega] at this

/-- The pattern at the number made of nine points is named after the digits of those that are lit. -/
theorem names_ok : ∀ b1 b2 b3 b4 b5 b6 b7 b8 b9 : Bool,
    names[index [b1, b2, b3, b4, b5, b6, b7, b8, b9]]? =
      some (nameOf ((([(1, b1), (2, b2), (3, b3), (4, b4), (5, b5), (6, b6), (7, b7), (8, b8), (9, b9)] :
        List (Nat × Bool)).filter (·.2)).map (·.1))) := by
  decide +kernel

/-! ## The table and the screen -/

theorem mapM_get {f : String → Option Nat} : ∀ {l : List String} {t : List Nat}, l.mapM f = some t →
    ∀ (k : Nat) (n : String), l[k]? = some n → ∃ v, t[k]? = some v ∧ f n = some v := by
  intro l
  induction l with
  | nil => intro t _ k n hk; simp at hk
  | cons a l ih =>
    intro t h k n hk
    rw [List.mapM_cons] at h
    cases ha : f a with
    | none => rw [ha] at h; cases h
    | some v =>
      rw [ha] at h
      cases ht : l.mapM f with
      | none => rw [ht] at h; cases h
      | some t' =>
        rw [ht] at h
        obtain rfl : v :: t' = t := Option.some.inj h
        cases k with
        | zero =>
          obtain rfl : a = n := by simpa using hk
          exact ⟨v, rfl, ha⟩
        | succ k => exact ih ht k n (by simpa using hk)

theorem init_get (x y : Int) : Screen.init.get x y = decide (Lit x y) := by
  rw [Bool.eq_iff_iff, decide_eq_true_iff]
  simp only [Screen.init, Screen.light, Screen.get, width, height, Lit]
  by_cases h : x < 0 ∨ x ≥ 64 ∨ y < 0 ∨ y ≥ 64
  · rw [if_pos (by simpa [or_assoc] using h)]
    constructor
    · intro hh; cases hh
    · omega
  · rw [if_neg (by simpa [or_assoc] using h)]
    simp
    omega

/-- What does not change. -/
def Like (d d' : Dev) : Prop :=
  d'.ops = d.ops ∧ d'.table = d.table ∧ d'.prop = d.prop ∧ d'.period = d.period ∧ d'.screen.lit = d.screen.lit

/-- The eye is where it may be. -/
def Within (d : Dev) : Prop := 1 ≤ d.screen.x ∧ d.screen.x ≤ 62 ∧ 1 ≤ d.screen.y ∧ d.screen.y ≤ 62

theorem move_spec {s s' : Screen} {dx dy ax ay : Int} (h : s.move dx dy = some (s', ax, ay)) :
    s'.lit = s.lit ∧ s'.x = max 1 (min 62 (s.x + dx)) ∧ s'.y = max 1 (min 62 (s.y + dy)) ∧
      ax = s'.x - s.x ∧ ay = s'.y - s.y := by
  unfold Screen.move addInt at h
  split at h
  · rw [Option.bind_some] at h
    split at h
    · rw [Option.map_some] at h
      obtain ⟨rfl, rfl, rfl⟩ := by simpa using h
      exact ⟨rfl, rfl, rfl, rfl, rfl⟩
    · cases h
  · cases h

theorem move_some (s : Screen) (dx dy : Int) (hx : 1 ≤ s.x ∧ s.x ≤ 62) (hy : 1 ≤ s.y ∧ s.y ≤ 62)
    (h1 : -1073741824 < dx ∧ dx < 1073741824) (h2 : -1073741824 < dy ∧ dy < 1073741824) :
    ∃ s' ax ay, s.move dx dy = some (s', ax, ay) := by
  unfold Screen.move addInt
  rw [if_pos (by omega), Option.bind_some, if_pos (by omega)]
  exact ⟨_, _, _, rfl⟩

/-- The part of `moveEye` after the eye is known. -/
def go (o : Obj) (a : Nat) (d : Dev) : Option (Answer × Dev) :=
  (toInt (asFloat (at_ o (a + 2)))).bind fun dx => (toInt (asFloat (at_ o (a + 3)))).bind fun dy =>
    (d.screen.move dx dy).map fun (s, ax, ay) =>
      (if ax = dx ∧ ay = dy then .same else .other (executed d ax ay), { d with screen := s })

theorem moveEye_eq (d : Dev) (o : Obj) : moveEye d o =
    if (getAtomCount (at_ o (asIndex (at_ o 2)).toNat)).toNat < 3 then some (.null, d)
    else (o.refs[(asIndex (at_ o ((asIndex (at_ o 2)).toNat + 1))).toNat]?).bind fun obj =>
      if d.eye.isNone then go o (asIndex (at_ o 2)).toNat { d with eye := obj }
      else if d.eye ≠ obj then some (.null, d)
      else go o (asIndex (at_ o 2)).toNat d := rfl

theorem go_spec {o : Obj} {a : Nat} {d d' : Dev} {r : Answer} (h : go o a d = some (r, d')) :
    ∃ dx dy ax ay, toInt (asFloat (at_ o (a + 2))) = some dx ∧ toInt (asFloat (at_ o (a + 3))) = some dy ∧
      d.screen.move dx dy = some (d'.screen, ax, ay) ∧ d' = { d with screen := d'.screen } ∧
      r = if ax = dx ∧ ay = dy then .same else .other (executed d ax ay) := by
  unfold go at h
  cases hx : toInt (asFloat (at_ o (a + 2))) with
  | none => rw [hx] at h; cases h
  | some dx =>
    cases hy : toInt (asFloat (at_ o (a + 3))) with
    | none => rw [hx, hy] at h; cases h
    | some dy =>
      rw [hx, hy, Option.bind_some, Option.bind_some] at h
      cases hm : d.screen.move dx dy with
      | none => rw [hm] at h; cases h
      | some m =>
        obtain ⟨s, ax, ay⟩ := m
        rw [hm, Option.map_some] at h
        obtain ⟨rfl, rfl⟩ := by simpa using h
        exact ⟨dx, dy, ax, ay, rfl, rfl, hm, rfl, rfl⟩

theorem go_like {o : Obj} {a : Nat} {d d' : Dev} {r : Answer} (h : go o a d = some (r, d')) :
    Like d d' ∧ Within d' ∧ d'.last = d.last ∧ d'.eye = d.eye := by
  obtain ⟨dx, dy, ax, ay, _, _, hm, hd, _⟩ := go_spec h
  obtain ⟨h1, h2, h3, _⟩ := move_spec hm
  refine ⟨⟨by rw [hd], by rw [hd], by rw [hd], by rw [hd], h1⟩, ?_, by rw [hd], by rw [hd]⟩
  unfold Within
  omega

theorem eject_like {d d' : Dev} {o : Obj} {r : Answer} (h : eject d o = some (r, d')) (hw : Within d) :
    Like d d' ∧ Within d' ∧ d'.last = d.last := by
  have hsame : Like d d ∧ Within d ∧ d.last = d.last := ⟨⟨rfl, rfl, rfl, rfl, rfl⟩, hw, rfl⟩
  have heye : ∀ e, Like d { d with eye := e } ∧ Within { d with eye := e } ∧ d.last = d.last :=
    fun e => ⟨⟨rfl, rfl, rfl, rfl, rfl⟩, hw, rfl⟩
  unfold eject at h
  split at h
  · simp only [ready] at h
    split at h
    · obtain ⟨s, _, h⟩ := Option.bind_eq_some_iff.mp h
      split at h
      · split at h
        · obtain ⟨rfl, rfl⟩ := by simpa using h
          exact hsame
        · split at h
          · obtain ⟨rfl, rfl⟩ := by simpa using h
            exact hsame
          · obtain ⟨obj, _, h⟩ := Option.map_eq_some_iff.mp h
            split at h
            · obtain ⟨rfl, rfl⟩ := by simpa using h
              exact heye obj
            · split at h
              · obtain ⟨rfl, rfl⟩ := by simpa using h
                exact hsame
              · obtain ⟨rfl, rfl⟩ := by simpa using h
                exact hsame
      · obtain ⟨rfl, rfl⟩ := by simpa using h
        exact hsame
    · obtain ⟨rfl, rfl⟩ := by simpa using h
      exact hsame
  · split at h
    · rw [moveEye_eq] at h
      split at h
      · obtain ⟨rfl, rfl⟩ := by simpa using h
        exact hsame
      · obtain ⟨obj, _, h⟩ := Option.bind_eq_some_iff.mp h
        split at h
        · obtain ⟨hl, hw', hla, _⟩ := go_like h
          exact ⟨hl, hw', hla⟩
        · split at h
          · obtain ⟨rfl, rfl⟩ := by simpa using h
            exact hsame
          · obtain ⟨hl, hw', hla, _⟩ := go_like h
            exact ⟨hl, hw', hla⟩
    · obtain ⟨rfl, rfl⟩ := by simpa using h
      exact hsame

theorem tick_like (d : Dev) (t : Int) : Like d (tick d t).2 ∧ (tick d t).2.screen = d.screen ∧
    (tick d t).2.eye = d.eye := by
  unfold tick
  split
  · exact ⟨⟨rfl, rfl, rfl, rfl, rfl⟩, rfl, rfl⟩
  · split <;> exact ⟨⟨rfl, rfl, rfl, rfl, rfl⟩, rfl, rfl⟩

theorem Like.trans {a b c : Dev} (h : Like a b) (g : Like b c) : Like a c :=
  ⟨g.1.trans h.1, g.2.1.trans h.2.1, g.2.2.1.trans h.2.2.1, g.2.2.2.1.trans h.2.2.2.1,
    g.2.2.2.2.trans h.2.2.2.2⟩

theorem run_like : ∀ (es : List Event) {d d' : Dev}, run d es = some d' → Within d → Like d d' ∧ Within d' := by
  intro es
  induction es with
  | nil =>
    intro d d' h hw
    obtain rfl : d = d' := Option.some.inj h
    exact ⟨⟨rfl, rfl, rfl, rfl, rfl⟩, hw⟩
  | cons e es ih =>
    intro d d' h hw
    rw [run] at h
    obtain ⟨d1, h1, h2⟩ := Option.bind_eq_some_iff.mp h
    cases e with
    | eject o =>
      obtain ⟨⟨r, d2⟩, he, rfl⟩ := Option.map_eq_some_iff.mp h1
      obtain ⟨hl, hw1, _⟩ := eject_like he hw
      obtain ⟨hl2, hw2⟩ := ih h2 hw1
      exact ⟨hl.trans hl2, hw2⟩
    | tick t =>
      obtain rfl : (tick d t).2 = d1 := Option.some.inj h1
      obtain ⟨hl, hs, _⟩ := tick_like d t
      obtain ⟨hl2, hw2⟩ := ih h2 (by unfold Within; rw [hs]; exact hw)
      exact ⟨hl.trans hl2, hw2⟩

theorem loaded {ops : Ops} {find : String → Option Nat} {period : Int} {d : Dev}
    (h : load ops find period = some d) : names.mapM find = some d.table ∧ Within d ∧ d.ops = ops ∧
      d.prop = find "fovea_pattern" ∧ d.period = period ∧ d.screen.lit = Screen.init.lit ∧ d.last = 0 ∧
      d.eye = none := by
  obtain ⟨t, ht, rfl⟩ := Option.map_eq_some_iff.mp h
  exact ⟨ht, (by decide : 1 ≤ Screen.init.x ∧ Screen.init.x ≤ 62 ∧ 1 ≤ Screen.init.y ∧ Screen.init.y ≤ 62), rfl, rfl, rfl, rfl, rfl, rfl⟩

/-! ## C107 -/

theorem nearest_of (w g : Int) (h : g = max 1 (min 62 w)) : Nearest w g := by
  refine ⟨by omega, by omega, ?_⟩
  intro z _ _
  omega

theorem function_of {o : Obj} {m : BitVec 16} (h : o.code[1]? = some (deviceFunction m)) (hm : m.toNat < 256) :
    function o = m := by
  unfold function at_
  rw [h, Option.getD_some]
  apply BitVec.eq_of_toNat_eq
  rw [BitVec.toNat_setWidth, BitVec.toNat_and, BitVec.toNat_ushiftRight, deviceFunction_toNat]
  rw [show BitVec.toNat (255 : BitVec 32) = 2 ^ 8 - 1 from rfl, Nat.and_two_pow_sub_one_eq_mod, Nat.shiftRight_eq_div_pow]
  omega

theorem toInt_of {w : Word} {k : Int} (h : Num w (k * unit)) (h1 : -1073741824 < k ∧ k < 1073741824) :
    toInt (asFloat w) = some k := by
  obtain ⟨_, hn, hi, hv⟩ := h
  unfold toInt
  rw [hn, hi, hv, show k * unit = k * 2 ^ 149 from rfl, Int.mul_tdiv_cancel k (by decide)]
  simp
  omega

theorem executed_eq (d : Dev) (dx dy : Int) : executed d dx dy =
    ⟨[Atom.object d.ops.cmd 3, deviceFunction d.ops.move, iPointer 4, one, Atom.set 3, rPointer 0, float (ofInt dx),
      float (ofInt dy)], [d.eye]⟩ := by
  simp [executed, Obj.put, Obj.setRef, Words.put, Words.grow]

theorem executed_is (d : Dev) (dx dy : Int) :
    IsMove d.ops (executed d dx dy) d.eye (float (ofInt dx)) (float (ofInt dy)) := by
  rw [executed_eq]
  refine ⟨rfl, iPointer 4, Atom.set 3, rfl, by decide, ?_, by decide, by decide, ⟨rPointer 0, ?_, by decide, ?_⟩, ?_, ?_⟩
  all_goals first
    | rw [show (asIndex (iPointer 4)).toNat = 4 by decide]; rfl
    | rw [show (asIndex (rPointer 0)).toNat = 0 by decide]; rfl

/-- A command to move the eye goes to the part that moves it. -/
theorem eject_move {d : Dev} {o : Obj} {e : Nat} {X Y : Word} (hne : d.ops.ready ≠ d.ops.move)
    (hm : d.ops.move.toNat < 256) (he : d.eye = none ∨ d.eye = some e) (h : IsMove d.ops o (some e) X Y) :
    ∃ a, eject d o = go o a { d with eye := some e } ∧ at_ o (a + 2) = X ∧ at_ o (a + 3) = Y := by
  obtain ⟨h1, w, hd, h2, _, h3, _, hc, ⟨r, hr, _, hrr⟩, hX, hY⟩ := h
  have h2' : at_ o 2 = w := by rw [at_, h2]; rfl
  refine ⟨(asIndex w).toNat, ?_, by rw [at_, hX]; rfl, by rw [at_, hY]; rfl⟩
  have hf := function_of h1 hm
  unfold eject
  rw [hf, if_neg (fun hh => hne hh.symm), if_pos rfl, moveEye_eq, h2',
    show at_ o (asIndex w).toNat = hd by (rw [at_, h3]; rfl), if_neg (by omega),
    show at_ o ((asIndex w).toNat + 1) = r by (rw [at_, hr]; rfl), hrr, Option.bind_some]
  rcases he with he | he
  · rw [if_pos (by rw [he]; rfl)]
  · rw [if_neg (by rw [he]; simp), if_neg (by rw [he]; simp)]
    congr 1
    rw [← he]

/-- C107, the part that holds (missing: displacements that are not whole numbers or that are of 2^30 and more, opcodes
of more than eight bits). The last two parts: whatever the numbers, a command made by the device tells how far the eye
was moved; and a command for another object does nothing. -/
theorem C107_eye_partial (ops : Ops) (find : String → Option Nat) (period : Int) (d0 d : Dev) (es : List Event)
    (hne : ops.ready ≠ ops.move) (hop : ops.move.toNat < 256) (hl : load ops find period = some d0)
    (hrun : run d0 es = some d) :
    (1 ≤ d.screen.x ∧ d.screen.x ≤ 62 ∧ 1 ≤ d.screen.y ∧ d.screen.y ≤ 62) ∧
    (∀ (o : Obj) (e : Nat) (X Y : Word) (kx ky : Int), (d.eye = none ∨ d.eye = some e) → IsMove ops o (some e) X Y →
      Num X (kx * unit) → Num Y (ky * unit) → (-1073741824 < kx ∧ kx < 1073741824) →
      (-1073741824 < ky ∧ ky < 1073741824) →
      ∃ a d' c X' Y', eject d o = some (a, d') ∧ a.command o = some c ∧ IsMove ops c (some e) X' Y' ∧
        Num X' ((d'.screen.x - d.screen.x) * unit) ∧ Num Y' ((d'.screen.y - d.screen.y) * unit) ∧
        Nearest (d.screen.x + kx) d'.screen.x ∧ Nearest (d.screen.y + ky) d'.screen.y ∧ d'.eye = some e) ∧
    (∀ (o c : Obj) (d' : Dev), eject d o = some (.other c, d') →
      ∃ X' Y', IsMove ops c d'.eye X' Y' ∧
        Num X' ((d'.screen.x - d.screen.x) * unit) ∧ Num Y' ((d'.screen.y - d.screen.y) * unit)) ∧
    (∀ (o : Obj) (e e' : Nat) (X Y : Word), d.eye = some e → e' ≠ e → IsMove ops o (some e') X Y →
      eject d o = some (.null, d)) := by
  obtain ⟨_, hw0, ho0, _⟩ := loaded hl
  obtain ⟨hlike, hw⟩ := run_like es hrun hw0
  have hops : d.ops = ops := hlike.1.trans ho0
  subst hops
  obtain ⟨w1, w2, w3, w4⟩ := hw
  -- the displacement is reported
  have hrep : ∀ (o : Obj) (a : Nat) (d1 d' : Dev) (ax ay dx dy : Int), d1.screen = d.screen →
      d1.screen.move dx dy = some (d'.screen, ax, ay) →
      Num (float (ofInt ax)) ((d'.screen.x - d.screen.x) * unit) ∧
      Num (float (ofInt ay)) ((d'.screen.y - d.screen.y) * unit) := by
    intro o a d1 d' ax ay dx dy hs hm
    obtain ⟨_, h2, h3, h4, h5⟩ := move_spec hm
    rw [hs] at h2 h3 h4 h5
    rw [← h4, ← h5]
    exact ⟨num_ofInt _ (by omega) (by omega), num_ofInt _ (by omega) (by omega)⟩
  refine ⟨⟨w1, w2, w3, w4⟩, ?_, ?_, ?_⟩
  · intro o e X Y kx ky he hmove hX hY hkx hky
    obtain ⟨a, hej, hax, hay⟩ := eject_move hne hop he hmove
    have htx := toInt_of hX hkx
    have hty := toInt_of hY hky
    obtain ⟨s', ax, ay, hm⟩ := move_some d.screen kx ky ⟨w1, w2⟩ ⟨w3, w4⟩ hkx hky
    obtain ⟨m1, m2, m3, m4, m5⟩ := move_spec hm
    have hgo : go o a { d with eye := some e } = some (if ax = kx ∧ ay = ky then .same
        else .other (executed { d with eye := some e } ax ay), { d with eye := some e, screen := s' }) := by
      unfold go
      rw [hax, hay, htx, hty, Option.bind_some, Option.bind_some, hm]
      rfl
    rw [hgo] at hej
    by_cases hsame : ax = kx ∧ ay = ky
    · rw [if_pos hsame] at hej
      refine ⟨.same, _, o, X, Y, hej, rfl, hmove, ?_, ?_, nearest_of _ _ m2, nearest_of _ _ m3, rfl⟩
      · show Num X ((s'.x - d.screen.x) * unit)
        rw [← m4, hsame.1]; exact hX
      · show Num Y ((s'.y - d.screen.y) * unit)
        rw [← m5, hsame.2]; exact hY
    · rw [if_neg hsame] at hej
      have := hrep o a d { d with eye := some e, screen := s' } ax ay kx ky rfl hm
      exact ⟨_, _, _, _, _, hej, rfl, executed_is { d with eye := some e } ax ay, this.1, this.2,
        nearest_of _ _ m2, nearest_of _ _ m3, rfl⟩
  · intro o c d' h
    have hgoal : ∀ (a : Nat) (d1 : Dev), d1.screen = d.screen → d1.ops = d.ops → go o a d1 = some (.other c, d') →
        ∃ X' Y', IsMove d.ops c d'.eye X' Y' ∧
        Num X' ((d'.screen.x - d.screen.x) * unit) ∧ Num Y' ((d'.screen.y - d.screen.y) * unit) := by
      intro a d1 hs ho hgo
      obtain ⟨dx, dy, ax, ay, _, _, hm, hd', hr⟩ := go_spec hgo
      have := hrep o a d1 d' ax ay dx dy hs hm
      split at hr
      · cases hr
      · injection hr with hr
        subst hr
        refine ⟨_, _, ?_, this.1, this.2⟩
        rw [← ho, show d'.eye = d1.eye by rw [hd']]
        exact executed_is d1 ax ay
    unfold eject at h
    split at h
    · simp only [ready] at h
      split at h
      · obtain ⟨s, _, h⟩ := Option.bind_eq_some_iff.mp h
        split at h
        · split at h
          · simp at h
          · split at h
            · simp at h
            · obtain ⟨obj, _, h⟩ := Option.map_eq_some_iff.mp h
              split at h
              · simp at h
              · split at h <;> simp at h
        · simp at h
      · simp at h
    · split at h
      · rw [moveEye_eq] at h
        split at h
        · simp at h
        · obtain ⟨obj, _, h⟩ := Option.bind_eq_some_iff.mp h
          split at h
          · exact hgoal _ { d with eye := obj } rfl rfl h
          · split at h
            · simp at h
            · exact hgoal _ _ rfl rfl h
      · simp at h
  · intro o e e' X Y he hee h
    obtain ⟨h1, w, hd, h2, _, h3, _, hc, ⟨r, hr, _, hrr⟩, hX, hY⟩ := h
    have hf := function_of h1 hop
    unfold eject
    rw [hf, if_neg (fun hh => hne hh.symm), if_pos rfl, moveEye_eq, show at_ o 2 = w by (rw [at_, h2]; rfl),
      show at_ o (asIndex w).toNat = hd by (rw [at_, h3]; rfl), if_neg (by omega),
      show at_ o ((asIndex w).toNat + 1) = r by (rw [at_, hr]; rfl), hrr, Option.bind_some,
      if_neg (by rw [he]; simp), if_pos (by rw [he]; simpa using fun h => hee h.symm)]

/-- Opcodes of an example. -/
def ops₀ : Ops := ⟨40, 41, 42⟩

/-- The command to move object 9 by the numbers in `X` and `Y`. -/
def moveBy (X Y : Word) : Obj :=
  ⟨[Atom.object 42 3, deviceFunction 41, iPointer 4, one, Atom.set 3, rPointer 0, X, Y], [some 9]⟩

theorem moveBy_is (X Y : Word) : IsMove ops₀ (moveBy X Y) (some 9) X Y := by
  refine ⟨rfl, iPointer 4, Atom.set 3, rfl, by decide, ?_, by decide, by decide, ⟨rPointer 0, ?_, by decide, ?_⟩, ?_, ?_⟩
  all_goals first
    | rw [show (asIndex (iPointer 4)).toNat = 4 by decide]; rfl
    | rw [show (asIndex (rPointer 0)).toNat = 0 by decide]; rfl

/-- The device of an example: all objects are there. -/
def dev₀ : Dev := ⟨ops₀, Screen.init, names.map fun _ => 0, some 0, none, 0, 100000⟩

theorem load₀ : load ops₀ (fun _ => some 0) 100000 = some dev₀ := by
  unfold load patterns
  rw [show names.mapM (fun _ => some 0) = some (names.map fun _ => 0) from ?_]
  · rfl
  · generalize names = l
    induction l with
    | nil => rfl
    | cons a l ih => rw [List.mapM_cons, ih]; rfl

/-- C107 is violated: the command to move the eye by 1.5 is answered as executed, but the eye was moved by 1. -/
theorem C107_eye_violated : ¬ C107_full ∧
    ((eject dev₀ (moveBy (float 0x3FC00000) (float 0))).map fun r => (r.1, r.2.screen.x, r.2.screen.y)) =
      some (.same, 4, 5) := by
  have hej : ∃ d', eject dev₀ (moveBy (float 0x3FC00000) (float 0)) = some (.same, d') ∧ d'.screen.x = 4 ∧
      d'.screen.y = 5 := by
    refine ⟨{ dev₀ with eye := some 9, screen := { Screen.init with x := 4, y := 5 } }, ?_, rfl, rfl⟩
    obtain ⟨a, he, hx, hy⟩ := eject_move (d := dev₀) (e := 9) (by decide) (by decide) (.inl rfl)
      (moveBy_is (float 0x3FC00000) (float 0))
    rw [he]
    unfold go
    rw [hx, hy, show toInt (asFloat (float 0x3FC00000)) = some 1 by decide +kernel,
      show toInt (asFloat (float 0)) = some 0 by decide +kernel]
    rfl
  obtain ⟨d', hej, hx, hy⟩ := hej
  refine ⟨fun hf => ?_, by rw [hej]; simp [hx, hy]⟩
  have hnum : Num (float 0x3FC00000) (3 * 2 ^ 148) ∧ Num (float 0) 0 := by
    unfold Num; decide +kernel
  obtain ⟨a, d'', c, X', Y', h1, h2, h3, h4, _⟩ := (hf ops₀ _ _ dev₀ dev₀ [] (by decide) load₀ rfl).2
    (moveBy (float 0x3FC00000) (float 0)) 9 _ _ _ _ (.inl rfl) (moveBy_is _ _) hnum.1 hnum.2
  rw [hej] at h1
  obtain ⟨rfl, rfl⟩ := by simpa using h1
  obtain rfl : moveBy (float 0x3FC00000) (float 0) = c := Option.some.inj h2
  obtain ⟨_, w, h, hw, _, _, _, _, _, hX, _⟩ := h3
  obtain rfl : iPointer 4 = w := Option.some.inj hw
  rw [show (asIndex (iPointer 4)).toNat = 4 by decide] at hX
  obtain rfl : float 0x3FC00000 = X' := Option.some.inj hX
  have := h4.2.2.2
  rw [hnum.1.2.2.2, hx] at this
  revert this
  show ¬ (3 * 2 ^ 148 : Int) = (4 - 3) * 2 ^ 149
  decide

/-- The eye is moved by ten to the right, and then by a hundred, of which it goes 49. -/
theorem C107_nonvacuous : load ops₀ (fun _ => some 0) 100000 = some dev₀ ∧ ops₀.ready ≠ ops₀.move ∧
    ops₀.move.toNat < 256 ∧ IsMove ops₀ (moveBy (float 0x41200000) (float 0)) (some 9) (float 0x41200000) (float 0) ∧
    Num (float 0x41200000) (10 * unit) ∧ Num (float 0x42C80000) (100 * unit) ∧
    ∃ d, run dev₀ [.eject (moveBy (float 0x41200000) (float 0)), .eject (moveBy (float 0x42C80000) (float 0))] =
      some d ∧ d.screen.x = 62 ∧ d.screen.y = 5 := by
  have hn : Num (float 0x41200000) (10 * unit) ∧ Num (float 0x42C80000) (100 * unit) ∧ Num (float 0) (0 * unit) := by
    unfold Num; decide +kernel
  refine ⟨load₀, by decide, by decide, moveBy_is _ _, hn.1, hn.2.1, ?_⟩
  refine ⟨{ dev₀ with eye := some 9, screen := { Screen.init with x := 62, y := 5 } }, ?_, rfl, rfl⟩
  have h1 : eject dev₀ (moveBy (float 0x41200000) (float 0)) =
      some (.same, { dev₀ with eye := some 9, screen := { Screen.init with x := 13, y := 5 } }) := by
    obtain ⟨a, he, hx, hy⟩ := eject_move (d := dev₀) (e := 9) (by decide) (by decide) (.inl rfl)
      (moveBy_is (float 0x41200000) (float 0))
    rw [he]
    unfold go
    rw [hx, hy, toInt_of hn.1 (by omega), toInt_of hn.2.2 (by omega)]
    rfl
  have h2 : ∃ a, eject { dev₀ with eye := some 9, screen := { Screen.init with x := 13, y := 5 } }
      (moveBy (float 0x42C80000) (float 0)) =
      some (a, { dev₀ with eye := some 9, screen := { Screen.init with x := 62, y := 5 } }) := by
    obtain ⟨a, he, hx, hy⟩ := eject_move (d := { dev₀ with eye := some 9, screen := { Screen.init with x := 13, y := 5 } })
      (e := 9) (by decide) (by decide) (.inr rfl) (moveBy_is (float 0x42C80000) (float 0))
    rw [he]
    unfold go
    rw [hx, hy, toInt_of hn.2.1 (by omega), toInt_of hn.2.2 (by omega)]
    exact ⟨_, rfl⟩
  obtain ⟨a, h2⟩ := h2
  simp only [run, step, h1, h2, Option.map_some, Option.bind_some]

/-! ## C108 -/

theorem fovea_name (s : Screen) (hl : s.lit = Screen.init.lit) :
    names[index s.fovea]? = some (nameOf (digits s.x s.y)) := by
  have hg : ∀ x y, s.get x y = decide (Lit x y) := by
    intro x y
    rw [← init_get]
    unfold Screen.get
    rw [hl]
  unfold Screen.fovea
  rw [names_ok]
  simp only [hg, digits, around]
  congr 2
  have : ∀ (l : List (Nat × Int × Int)), List.map (fun x : Nat × Bool => x.1) (List.filter (fun x => x.2)
      (l.map fun p => (p.1, decide (Lit (s.x + p.2.1) (s.y + p.2.2))))) =
      List.map (fun x => x.1) (List.filter (fun p => decide (Lit (s.x + p.2.1) (s.y + p.2.2))) l) := by
    intro l
    induction l with
    | nil => rfl
    | cons p l ih =>
      simp only [List.map_cons, List.filter_cons]
      split <;> simp [ih]
  rw [← this]
  simp [Int.sub_eq_add_neg]

theorem seen_last : ∀ (es : List Event) {d d' : Dev}, run d es = some d' → Within d →
    d'.last = (((seen d es).getLast?).map (·.after)).getD d.last := by
  intro es
  induction es with
  | nil =>
    intro d d' h _
    obtain rfl : d = d' := Option.some.inj h
    rfl
  | cons e es ih =>
    intro d d' h hw
    rw [run] at h
    obtain ⟨d1, h1, h2⟩ := Option.bind_eq_some_iff.mp h
    cases e with
    | eject o =>
      obtain ⟨⟨r, d2⟩, he, rfl⟩ := Option.map_eq_some_iff.mp h1
      obtain ⟨_, hw1, hla⟩ := eject_like he hw
      rw [ih h2 hw1, hla, seen, he]
    | tick t =>
      obtain rfl : (tick d t).2 = d1 := Option.some.inj h1
      obtain ⟨_, hs, _⟩ := tick_like d t
      rw [ih h2 (by unfold Within; rw [hs]; exact hw), seen, List.getLast?_append]
      generalize (seen (tick d t).2 es).getLast? = g
      cases g with
      | some s => rfl
      | none =>
        unfold tick
        split
        · rfl
        · split <;> rfl

/-- C108: whatever was done before, at a tick the device injects, for the eye it was told of and for the time from now
on for one sampling period, the pattern whose name tells the lit points around the eye; it does so at every tick more
than eight tenths of a period after the last one, once there is an eye. -/
theorem C108_fovea_pattern (ops : Ops) (find : String → Option Nat) (period : Int) (d0 d : Dev) (es : List Event)
    (hl : load ops find period = some d0) (hrun : run d0 es = some d) (now : Int) :
    (∀ s, (tick d now).1 = some s → d.eye = some s.object ∧ s.prop = find "fovea_pattern" ∧
      (∃ v, s.value = some v ∧ find (nameOf (digits d.screen.x d.screen.y)) = some v) ∧
      s.after = now ∧ s.before = now + period) ∧
    ((tick d now).1 = none ↔ d.eye = none ∨
      now ≤ (((seen d0 es).getLast?).map (·.after)).getD 0 + (period * 8).tdiv 10) := by
  obtain ⟨ht, hw0, _, hp0, hper, hlit, hl0, _⟩ := loaded hl
  obtain ⟨⟨_, l2, l3, l4, l5⟩, hw⟩ := run_like es hrun hw0
  have hlast := seen_last es hrun hw0
  rw [hl0] at hlast
  constructor
  · intro s hs
    unfold tick at hs
    split at hs
    · cases hs
    · split at hs
      · cases hs
      · rename_i e he
        obtain rfl := Option.some.inj hs
        obtain ⟨v, hv, hf⟩ := mapM_get ht _ _ (fovea_name d.screen (l5.trans hlit))
        refine ⟨he, l3.trans hp0, ⟨v, by rw [← hv, ← l2], hf⟩, rfl, ?_⟩
        show now + d.period = _
        rw [l4, hper]
  · rw [← hlast, ← hper, ← l4]
    unfold tick
    split
    · rename_i h
      exact ⟨fun _ => .inr h, fun _ => rfl⟩
    · rename_i h
      cases he : d.eye with
      | none => exact ⟨fun _ => .inl rfl, fun _ => rfl⟩
      | some e => exact ⟨fun hh => by simp at hh, fun hh => by
        rcases hh with hh | hh
        · cases hh
        · exact absurd hh h⟩

/-- At the start the eye is in the middle of the paddle: points 2, 5 and 8 are lit. -/
theorem C108_nonvacuous : load ops₀ (fun _ => some 0) 100000 = some dev₀ ∧ digits 3 5 = [2, 5, 8] ∧
    nameOf (digits 3 5) = "pattern258" ∧ nameOf (digits 13 5) = "pattern0" ∧ nameOf (digits 4 7) = "pattern7" := by
  refine ⟨load₀, by decide, by decide +kernel, by decide +kernel, by decide +kernel⟩

end Verif.Screen
