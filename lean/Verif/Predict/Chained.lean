import Verif.Predict.Props
import Verif.Requirements.Props
/-!
# Forward chaining through the caches of requirements (C113 with C43)
-/
namespace Verif.Predict
open Verif.F32 (Arith)
open Verif.Requirements (Status Acc Res Entry fires fwd Query Holds InForce Live C43_fwd_partial vals)
open Verif.CellList

variable {pos neg : St Entry} {P N : List (Nat × Entry)}

/-- A model predicts, from an actual input, what those requirements bind that are in force and match: if it has weak
requirements only, the predictions are of exactly the right-hand sides that these give, with the confidence of the input
times the success rate of the model; if it has none, of the right-hand side the input gives. If it has both kinds,
it predicts only if a requirement is in force that no strong one in force overrules; if only strong ones, only if none
of them is in force (those that have expired aside). -/
theorem C113_chained (A : Arith) (m : Mdl) (now : Int) (same : Nat → Nat → Bool) (x : In) (trig : Bool)
    (bind : Option Res → Option Bound) (ans : Nat → Acc) (q : Query) (t wr sr fuel : Nat) (hx : x.pred = none)
    (hm : m.isReq = false) (hp : Holds pos P) (hn : Holds neg N)
    (hexp : wr = 0 → sr ≠ 0 → ∀ e ∈ vals N, Live t e) (hfuel : N.length ≤ fuel) :
    ∃ a c', fwd q t wr sr fuel ⟨pos, neg⟩ = some (a, c') ∧
      let es := (reduce A m now same x .positive trig bind a ans).1
      (wr ≠ 0 → sr = 0 → ∀ n : Nat, (∃ p ∈ guesses es, p.rhs = n ∧ p.cfd = A.store (A.mul x.cfd m.rate) ∧ p.sims = []) ↔
        m.thr < A.mul x.cfd m.rate ∧ ∃ e ∈ vals P, InForce t e ∧ q.weak e = true ∧
          ∃ b, bind (some (.weak e)) = some b ∧ b.rhs = n ∧ now < b.before) ∧
      (wr = 0 → sr = 0 → ∀ n : Nat, (∃ p ∈ guesses es, p.rhs = n) ↔
        m.thr < A.mul x.cfd m.rate ∧ ∃ b, bind none = some b ∧ b.rhs = n ∧ now < b.before) ∧
      (wr = 0 → sr ≠ 0 → guesses es ≠ [] → ¬ ∃ e ∈ vals N, InForce t e ∧ q.strong e = true) ∧
      (wr ≠ 0 → sr ≠ 0 → guesses es ≠ [] → ∃ e ∈ vals P, InForce t e ∧ q.weak e = true ∧
        ∀ s, Requirements.First (fun x => InForce t x ∧ q.strong x = true) (vals N) s → Requirements.Beats q e s) := by
  obtain ⟨a, c', h1, h2, h3⟩ := C43_fwd_partial q t wr sr fuel hp hn hexp hfuel
  refine ⟨a, c', h1, ?_⟩
  intro es
  have hs : x.simulated = false := by simp [In.simulated, hx]
  have hR := (real_iff x).2 hs
  have hnil : x.sims = [] := by simp [In.sims, hx]
  obtain ⟨g1, g2, -, -⟩ := C113_predictions_partial (A := A) (m := m) (now := now) (same := fun _ _ => false) (x := x)
    (bind := bind) (a := a) (ans := ans) (trig := trig) (fun _ s hs' => by rw [hnil] at hs'; simp at hs')
  have hsame : es = (reduce A m now (fun _ _ => false) x .positive trig bind a ans).1 := by
    show (reduce A m now same x .positive trig bind a ans).1 = _
    cases hg : gate m x a ans with
    | none => unfold reduce; rw [hg]
    | some y =>
      obtain ⟨al, w, rs⟩ := y
      rw [reduce_some hg, reduce_some hg, loop_actual hx hm, loop_actual hx hm]
      congr 2
  rw [← hsame] at g1 g2
  have hal : ∀ p ∈ guesses es, fires a.r = true := by
    intro p hp
    obtain ⟨s, v, h⟩ := mem_guesses.1 hp
    exact (fires_iff a).2 ((g1 p s v h).2.1.1 hR)
  have hAll : fires a.r = true → Allowed x a ans := fun h =>
    ⟨fun _ => (fires_iff a).1 h, fun h => absurd hR h⟩
  have hB : ∀ r, Binds x a ans r ↔ Way a.results r := by
    intro r
    unfold Binds
    simp [hR]
  have hS : Sure x x.cfd := ⟨fun g h => by rw [hx] at h; simp at h, fun _ => rfl⟩
  have hp0 : ∀ p ∈ guesses es, ∃ r b, Way a.results r ∧ bind r = some b ∧ p.rhs = b.rhs ∧
      p.cfd = A.store (A.mul x.cfd m.rate) ∧ p.sims = [] ∧ m.thr < A.mul x.cfd m.rate ∧ now < b.before := by
    intro p hp
    obtain ⟨s, v, h⟩ := mem_guesses.1 hp
    obtain ⟨-, -, r, b, q', k1, k2, k3, k4, k5, -⟩ := g1 p s v h
    have := sure_eq k3 hS
    subst this
    exact ⟨r, b, (hB r).1 k1, k2, k4.rhs, k4.cfd, by rw [inSims_eq k4.sims, hnil], k5.1, k5.2 hR⟩
  refine ⟨fun hw hs' n => ?_, fun hw hs' n => ?_, fun hw hs' hne => ?_, fun hw hs' hne => ?_⟩
  · have hf := h2.2.1 hw hs'
    obtain ⟨l, hl, -, hl'⟩ := h3 hw hs'
    constructor
    · rintro ⟨p, hp, rfl, -, -⟩
      obtain ⟨r, b, k1, k2, k3, -, -, k5, k6⟩ := hp0 p hp
      refine ⟨k5, ?_⟩
      rcases k1 with ⟨y, hy, rfl⟩ | ⟨he, rfl⟩
      · rw [hl] at hy
        obtain ⟨e, he, rfl⟩ := List.mem_map.1 hy
        obtain ⟨e', hfe⟩ := hf.1 (hal p hp)
        have hep : e ∈ vals P := by
          have := (h3 hw hs')
          obtain ⟨l', hl1, hl2, -⟩ := this
          have : l = l' := by
            have h := hl.symm.trans hl1
            exact (List.map_injective_iff.2 (fun a b h => by cases h; rfl)) h
          subst this
          exact hl2.subset he
        obtain ⟨u1, u2⟩ := (hl' e hep).1 he
        exact ⟨e, hep, u1, u2, b, k2, k3.symm, k6⟩
      · obtain ⟨e', he1, he2, he3⟩ := hf.1 (hal p hp)
        have := (hl' e' he1).2 ⟨he2, he3⟩
        rw [hl] at he
        rw [List.map_eq_nil_iff.1 he] at this
        simp at this
    · rintro ⟨hc, e, he, h4, h5, b, h6, rfl, h7⟩
      have hmem := (hl' e he).2 ⟨h4, h5⟩
      obtain ⟨p, s, v, k1, k2⟩ := g2 hm (hAll (hf.2 ⟨e, he, h4, h5⟩)) (some (.weak e)) b x.cfd
        ((hB _).2 (Or.inl ⟨.weak e, by rw [hl]; exact List.mem_map_of_mem hmem, rfl⟩)) h6 hS ⟨hc, fun _ => h7⟩
      have hpg := mem_guesses.2 ⟨s, v, k1⟩
      obtain ⟨-, b', -, -, -, k4, k5, -⟩ := hp0 p hpg
      rcases k2 with k2 | k2
      · exact ⟨p, hpg, k2, k4, k5⟩
      · simp at k2
  · have ha : a = { r := .noRequirement } := by
      unfold fwd at h1
      rw [if_pos (by omega)] at h1
      simp at h1
      exact h1.1.symm
    have hr0 : a.results = [] := by rw [ha]
    constructor
    · rintro ⟨p, hp, rfl⟩
      obtain ⟨r, b, k1, k2, k3, -, -, k5, k6⟩ := hp0 p hp
      rcases k1 with ⟨y, hy, rfl⟩ | ⟨-, rfl⟩
      · rw [hr0] at hy; simp at hy
      · exact ⟨k5, b, k2, k3.symm, k6⟩
    · rintro ⟨hc, b, h6, rfl, h7⟩
      obtain ⟨p, s, v, k1, k2⟩ := g2 hm (hAll (h2.1 hw hs')) none b x.cfd
        ((hB _).2 (Or.inr ⟨hr0, rfl⟩)) h6 hS ⟨hc, fun _ => h7⟩
      rcases k2 with k2 | k2
      · exact ⟨p, mem_guesses.2 ⟨s, v, k1⟩, k2⟩
      · simp at k2
  · obtain ⟨p, hp⟩ := List.exists_mem_of_ne_nil _ hne
    exact (h2.2.2.1 hw hs').1 (hal p hp)
  · obtain ⟨p, hp⟩ := List.exists_mem_of_ne_nil _ hne
    exact (h2.2.2.2 hw hs').1 (hal p hp)

/-- A requirement in force in the cache, and what the model then predicts. -/
theorem C113_chained_nonvacuous :
    Holds CellList.empty [] ∧ (∃ u, Holds (Requirements.one e₁) u ∧ vals u = [e₁]) ∧ InForce 10 e₁ ∧
    (∃ a c', fwd Requirements.anyMatch 10 1 0 1 ⟨Requirements.one e₁, CellList.empty⟩ = some (a, c') ∧
      (guesses (reduce F32.exact m₁ 100 (· == ·) x₁ .positive true bind₁ a (fun _ => a)).1).map Made.rhs = [9]) := by
  refine ⟨Requirements.holds_empty, ⟨_, Requirements.holds_one e₁, rfl⟩, ⟨⟨rfl, Or.inl (by decide)⟩, by decide, rfl⟩,
    _, _, rfl, by decide +kernel⟩

end Verif.Predict
