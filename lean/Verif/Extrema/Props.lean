import Verif.Extrema.Model
import Verif.Ops.Props
/-!
# Property C169
-/
namespace Verif.Extrema
open Verif.Ops Verif.F32

/-- A value as atoms hold it. -/
def Held (E : Env) : Val → Prop
  | .num (.fin q) => E.A.store q = q
  | _ => True

/-- Of one kind. -/
def Alike : Val → Val → Prop
  | .num _, .num _ => True
  | .time _, .time _ => True
  | .dur _, .dur _ => True
  | _, _ => False

/-- The first is not more than the second, as `lse` says. -/
def Leq (a b : Val) : Prop := lse a b = .bool true

/-- C169: min and max of two values of one kind are their greatest lower and least upper bounds, one of the two, whichever comes first;
of values of different kinds there are none. -/
def C169_full : Prop :=
  ∀ (E : Env) (a b : Val), Held E a → Held E b →
    (Alike a b → (∃ c, minimum E a b = .ok c ∧ minimum E b a = .ok c ∧ (c = a ∨ c = b) ∧ ∀ d, Leq d c ↔ Leq d a ∧ Leq d b) ∧
      ∃ c, maximum E a b = .ok c ∧ maximum E b a = .ok c ∧ (c = a ∨ c = b) ∧ ∀ d, Leq c d ↔ Leq a d ∧ Leq b d) ∧
    (¬ Alike a b → minimum E a b = .fail ∧ maximum E a b = .fail)

theorem leq_refl {a b : Val} (h : Comparable a b) : Leq a a := by
  cases a with
  | num x => cases b <;> simp_all [Comparable, Leq, lse]; cases x <;> simp_all [fle]
  | time t => simp [Leq, lse]
  | dur t => simp [Leq, lse]
  | other => cases b <;> exact h.elim

theorem comparable_symm {a b : Val} (h : Comparable a b) : Comparable b a := by
  cases a <;> cases b <;> simp_all [Comparable]

theorem comparable_trans {a b c : Val} (h : Comparable a b) (h' : Comparable b c) : Comparable a c := by
  cases b with
  | num y =>
    cases a <;> try exact h.elim
    cases c <;> try exact h'.elim
    exact ⟨h.1, h'.2⟩
  | time y =>
    cases a <;> try exact h.elim
    cases c <;> try exact h'.elim
    trivial
  | dur y =>
    cases a <;> try exact h.elim
    cases c <;> try exact h'.elim
    trivial
  | other => cases a <;> exact h.elim

/-- The lesser of two comparable values. -/
theorem min_spec (E : Env) (a b : Val) (ha : Held E a) (hb : Held E b) (h : Comparable a b) :
    (Leq a b ∧ minimum E a b = .ok a ∧ minimum E b a = .ok a ∧ maximum E a b = .ok b ∧ maximum E b a = .ok b) ∨
    (Leq b a ∧ minimum E a b = .ok b ∧ minimum E b a = .ok b ∧ maximum E a b = .ok a ∧ maximum E b a = .ok a) := by
  cases a with
  | num x =>
    cases b with
    | num y =>
      obtain ⟨hx, hy⟩ := h
      cases x with
      | nan => exact absurd rfl hx
      | fin p =>
        cases y with
        | nan => exact absurd rfl hy
        | fin q =>
          have hp : E.A.store p = p := ha
          have hq : E.A.store q = q := hb
          rcases lt_trichotomy p q with hlt | heq | hlt
          · left
            simp [Leq, lse, fle, minimum, maximum, numMin, numMax, stdMin, stdMax, flt, number, stored, hp, hq, hlt, le_of_lt hlt, not_lt.mpr (le_of_lt hlt)]
          · left
            subst heq
            simp [Leq, lse, fle, minimum, maximum, numMin, numMax, stdMin, stdMax, flt, number, stored, hp]
          · right
            simp [Leq, lse, fle, minimum, maximum, numMin, numMax, stdMin, stdMax, flt, number, stored, hp, hq, hlt, le_of_lt hlt, not_lt.mpr (le_of_lt hlt)]
        | inf =>
          have hp : E.A.store p = p := ha
          left; simp [Leq, lse, fle, minimum, maximum, numMin, numMax, number, stored, hp]
        | ninf =>
          have hp : E.A.store p = p := ha
          right; simp [Leq, lse, fle, minimum, maximum, numMin, numMax, number, stored, hp]
      | inf =>
        cases y with
        | nan => exact absurd rfl hy
        | fin q =>
          have hq : E.A.store q = q := hb
          right; simp [Leq, lse, fle, minimum, maximum, numMin, numMax, number, stored, hq]
        | inf => left; simp [Leq, lse, fle, minimum, maximum, numMin, numMax, number, stored]
        | ninf => right; simp [Leq, lse, fle, minimum, maximum, numMin, numMax]
      | ninf =>
        cases y with
        | nan => exact absurd rfl hy
        | fin q =>
          have hq : E.A.store q = q := hb
          left; simp [Leq, lse, fle, minimum, maximum, numMin, numMax, number, stored, hq]
        | inf => left; simp [Leq, lse, fle, minimum, maximum, numMin, numMax]
        | ninf => left; simp [Leq, lse, fle, minimum, maximum, numMin, numMax, number, stored]
    | _ => exact h.elim
  | time s =>
    cases b with
    | time t =>
      rcases le_total s t with hl | hl
      · left; simp [Leq, lse, minimum, maximum, hl]
      · right; simp [Leq, lse, minimum, maximum, hl]
    | _ => exact h.elim
  | dur s =>
    cases b with
    | dur t =>
      rcases le_total s t with hl | hl
      · left; simp [Leq, lse, minimum, maximum, hl]
      · right; simp [Leq, lse, minimum, maximum, hl]
    | _ => exact h.elim
  | other => exact h.elim

theorem leq_trans {a b c : Val} (h1 : Leq a b) (h2 : Leq b c) : Leq a c := C53_order_trans a b c h1 h2

/-- C169 for values that can be compared: numbers that are not NaN, timestamps, durations. Then min and max are also associative, and
absorb each other. Missing from `C169_full`: NaN. -/
theorem C169_minmax_partial (E : Env) (a b : Val) (ha : Held E a) (hb : Held E b) :
    (Comparable a b → (∃ c, minimum E a b = .ok c ∧ minimum E b a = .ok c ∧ (c = a ∨ c = b) ∧ ∀ d, Leq d c ↔ Leq d a ∧ Leq d b) ∧
      (∃ c, maximum E a b = .ok c ∧ maximum E b a = .ok c ∧ (c = a ∨ c = b) ∧ ∀ d, Leq c d ↔ Leq a d ∧ Leq b d) ∧
      (∃ c, maximum E a b = .ok c ∧ minimum E a c = .ok a) ∧ (∃ c, minimum E a b = .ok c ∧ maximum E a c = .ok a) ∧
      ∀ c, Held E c → Comparable b c →
        (∃ x y r, minimum E a b = .ok x ∧ minimum E x c = .ok r ∧ minimum E b c = .ok y ∧ minimum E a y = .ok r) ∧
        ∃ x y r, maximum E a b = .ok x ∧ maximum E x c = .ok r ∧ maximum E b c = .ok y ∧ maximum E a y = .ok r) ∧
    (¬ Alike a b → minimum E a b = .fail ∧ maximum E a b = .fail) := by
  refine ⟨fun h => ?_, fun h => ?_⟩
  · have hsame : ∀ x y, Held E x → Comparable x y → minimum E x x = .ok x ∧ maximum E x x = .ok x := by
      intro x y hx hc
      have hxx : Comparable x x := comparable_trans hc (comparable_symm hc)
      rcases min_spec E x x hx hx hxx with ⟨_, h1, _, h2, _⟩ | ⟨_, h1, _, h2, _⟩ <;> exact ⟨h1, h2⟩
    have hanti : ∀ x y, Comparable x y → Leq x y → Leq y x → x = y := by
      intro x y hc h1 h2
      obtain ⟨_, le, _, ge, _, q1, _, _, _, _, _, q2, _, _, q3⟩ := C53_order x y hc
      rw [Leq, q1] at h1
      rw [Leq, q3] at h2
      cases h1
      cases h2
      exact q2.mp ⟨rfl, rfl⟩
    refine ⟨?_, ?_, ?_, ?_, ?_⟩
    · rcases min_spec E a b ha hb h with ⟨hl, h1, h2, _⟩ | ⟨hl, h1, h2, _⟩
      · exact ⟨a, h1, h2, Or.inl rfl, fun d => ⟨fun hd => ⟨hd, leq_trans hd hl⟩, fun hd => hd.1⟩⟩
      · exact ⟨b, h1, h2, Or.inr rfl, fun d => ⟨fun hd => ⟨leq_trans hd hl, hd⟩, fun hd => hd.2⟩⟩
    · rcases min_spec E a b ha hb h with ⟨hl, _, _, h1, h2⟩ | ⟨hl, _, _, h1, h2⟩
      · exact ⟨b, h1, h2, Or.inr rfl, fun d => ⟨fun hd => ⟨leq_trans hl hd, hd⟩, fun hd => hd.2⟩⟩
      · exact ⟨a, h1, h2, Or.inl rfl, fun d => ⟨fun hd => ⟨hd, leq_trans hl hd⟩, fun hd => hd.1⟩⟩
    · rcases min_spec E a b ha hb h with ⟨_, h1, _, h2, _⟩ | ⟨_, h1, _, h2, _⟩
      · exact ⟨b, h2, h1⟩
      · exact ⟨a, h2, (hsame a b ha h).1⟩
    · rcases min_spec E a b ha hb h with ⟨_, h1, _, h2, _⟩ | ⟨_, h1, _, h2, _⟩
      · exact ⟨a, h1, (hsame a b ha h).2⟩
      · exact ⟨b, h1, h2⟩
    · intro c hc hbc
      have hac : Comparable a c := comparable_trans h hbc
      rcases min_spec E a b ha hb h with ⟨l1, m1, m1', x1, x1'⟩ | ⟨l1, m1, m1', x1, x1'⟩ <;>
      rcases min_spec E b c hb hc hbc with ⟨l2, m2, m2', x2, x2'⟩ | ⟨l2, m2, m2', x2, x2'⟩ <;>
      rcases min_spec E a c ha hc hac with ⟨l3, m3, m3', x3, x3'⟩ | ⟨l3, m3, m3', x3, x3'⟩
      · exact ⟨⟨a, b, a, m1, m3, m2, m1⟩, ⟨b, c, c, x1, x2, x2, x3⟩⟩
      · have e := hanti a c hac (leq_trans l1 l2) l3
        subst e
        exact ⟨⟨a, b, a, m1, m3, m2, m1⟩, ⟨b, a, a, x1, x2, x2, x3⟩⟩
      · exact ⟨⟨a, c, a, m1, m3, m2, m3⟩, ⟨b, b, b, x1, x2, x2, x1⟩⟩
      · exact ⟨⟨a, c, c, m1, m3, m2, m3⟩, ⟨b, b, b, x1, x2, x2, x1⟩⟩
      · exact ⟨⟨b, b, b, m1, m2, m2, m1⟩, ⟨a, c, c, x1, x3, x2, x3⟩⟩
      · exact ⟨⟨b, b, b, m1, m2, m2, m1⟩, ⟨a, c, a, x1, x3, x2, x3⟩⟩
      · have e := hanti a c hac l3 (leq_trans l2 l1)
        subst e
        exact ⟨⟨b, a, a, m1, m2, m2, m3⟩, ⟨a, b, a, x1, x3, x2, x1⟩⟩
      · exact ⟨⟨b, c, c, m1, m2, m2, m3⟩, ⟨a, b, a, x1, x3, x2, x1⟩⟩
  · cases a <;> cases b <;> simp_all [Alike, minimum, maximum]

/-- NaN as a program can get it: the difference of two negative infinities. -/
def undef : Val := .num .nan

/-- C169 does not hold: the result depends on the order of the operands when one of them is NaN, which arises from infinities; and then
min is not a lower bound. -/
theorem C169_minmax_violated :
    ¬ C169_full ∧
    sub exactEnv (.num .ninf) (.num .ninf) = .ok undef ∧
    minimum exactEnv undef (.num (.fin 1)) = .ok undef ∧ minimum exactEnv (.num (.fin 1)) undef = .ok (.num (.fin 1)) ∧
    maximum exactEnv undef (.num (.fin 1)) = .ok undef ∧ maximum exactEnv (.num (.fin 1)) undef = .ok (.num (.fin 1)) := by
  have h1 : minimum exactEnv undef (.num (.fin 1)) = .ok undef := rfl
  have h2 : minimum exactEnv (.num (.fin 1)) undef = .ok (.num (.fin 1)) := rfl
  refine ⟨fun h => ?_, rfl, h1, h2, rfl, rfl⟩
  obtain ⟨⟨c, q1, q2, _⟩, _⟩ := (h exactEnv undef (.num (.fin 1)) trivial rfl).1 trivial
  rw [h1] at q1
  rw [h2] at q2
  cases q1
  cases q2

/-- Values as in `C169_minmax_partial`: numbers with an infinity, durations; and values of different kinds. -/
theorem C169_nonvacuous :
    Held exactEnv (.num (.fin 2)) ∧ Comparable (.num (.fin 2)) (.num .ninf) ∧ minimum exactEnv (.num (.fin 2)) (.num .ninf) = .ok (.num .ninf) ∧
    maximum exactEnv (.num (.fin 2)) (.num .ninf) = .ok (.num (.fin 2)) ∧
    Comparable (.dur 4) (.dur (-3)) ∧ minimum exactEnv (.dur 4) (.dur (-3)) = .ok (.dur (-3)) ∧
    ¬ Alike (.dur 4) (.num (.fin 4)) ∧ minimum exactEnv (.dur 4) (.num (.fin 4)) = .fail := by
  refine ⟨rfl, ⟨by simp, by simp⟩, rfl, rfl, trivial, by decide, fun h => h, rfl⟩

end Verif.Extrema
