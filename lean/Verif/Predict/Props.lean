import Verif.Predict.Lemmas
/-!
# Properties of forward chaining (C113-C118)
-/
namespace Verif.Predict
open Verif.F32 (Arith)
open Verif.Requirements (Status Acc Res Entry fires)

variable {A : Arith} {m : Mdl} {now : Int} {same : Nat → Nat → Bool} {x : In} {allowed req wre : Bool}
  {bind : Option Res → Option Bound} {a : Acc} {ans : Nat → Acc} {trig : Bool}

/-- An effect of reducing an input comes from the evidence or from one of the ways to bind the model. -/
theorem reduce_mem {e : Eff} (h : e ∈ (reduce A m now same x .positive trig bind a ans).1) :
    e ∈ stored x trig ∨ ∃ al w rs, gate m x a ans = some (al, w, rs) ∧
      e ∈ (loop A m now same x al (matched a) w bind (cands rs) []).1 := by
  unfold reduce at h
  cases hg : gate m x a ans with
  | none => rw [hg] at h; exact Or.inl h
  | some y =>
    obtain ⟨al, w, rs⟩ := y
    rw [hg] at h
    rcases List.mem_append.1 h with h | h
    · exact Or.inr ⟨al, w, rs, rfl, h⟩
    · exact Or.inl h

theorem stored_mem {e : Eff} (h : e ∈ stored x trig) : ∃ i d, e = .evidence i d := by
  unfold stored at h
  split at h
  · simp at h
  · split at h
    · split at h
      · exact ⟨_, _, List.mem_singleton.1 h⟩
      · simp at h
    · exact ⟨_, _, List.mem_singleton.1 h⟩

theorem reduce_some {al w : Bool} {rs : List Res} (hg : gate m x a ans = some (al, w, rs)) :
    (reduce A m now same x .positive trig bind a ans).1 =
      (loop A m now same x al (matched a) w bind (cands rs) []).1 ++ stored x trig := by
  unfold reduce
  rw [hg]

theorem guesses_stored : guesses (stored x trig) = [] := by
  unfold stored
  split
  · rfl
  · split
    · split <;> rfl
    · rfl
theorem watched_stored : watched (stored x trig) = [] := by
  unfold stored
  split
  · rfl
  · split
    · split <;> rfl
    · rfl
theorem raters_stored : raters (stored x trig) = [] := by
  unfold stored
  split
  · rfl
  · split
    · split <;> rfl
    · rfl

theorem predict_sound {b : Bound} {g : Option Nat} {d : List Nat} {p : Made} {sln : Rat} {res : Int}
    (h : Eff.predict p sln res ∈ (predict A m now same x allowed req wre b g d).1) :
    allowed = true ∧ m.isReq = false ∧ ∃ q, Sure x q ∧ p = production A m x b g (A.mul q m.rate) ∧
      Worth m now x b (A.mul q m.rate) ∧ sln = A.store (A.mul q m.rate) ∧
      (Real x → res = Lifetime.goalRes m.ref m.upr now (b.before - now)) ∧ (¬ Real x → res = 1) := by
  cases hd : d.any (same b.rhs) with
  | true => rw [predict_done hd] at h; simp at h
  | false =>
  cases hr : m.isReq with
  | true =>
    rw [predict_req hr b g hd] at h
    dsimp only at h
    split at h <;> simp at h
  | false =>
  obtain ⟨q, hq, -⟩ := sure x
  cases hx : x.pred with
  | none =>
    have hs : x.simulated = false := by simp [In.simulated, hx]
    have hR := (real_iff x).2 hs
    have hqx := hq.2 hx
    rw [predict_actual hx hr b g hd] at h
    dsimp only at h
    cases allowed with
    | false => cases req <;> simp at h
    | true =>
      refine ⟨rfl, rfl, q, hq, ?_⟩
      by_cases hb : b.before ≤ now
      · cases req <;> simp [hb] at h
      · by_cases hc : m.thr < A.mul x.cfd m.rate
        · have h' : p = production A m x b g (A.mul x.cfd m.rate) ∧ sln = A.store (A.mul x.cfd m.rate) ∧
              res = Lifetime.goalRes m.ref m.upr now (b.before - now) := by
            cases req <;> simpa [hb, hc] using h
          rw [hqx]
          exact ⟨h'.1, ⟨hc, fun _ => by omega⟩, h'.2.1, fun _ => h'.2.2, fun h => absurd hR h⟩
        · cases req <;> simp [hb, hc] at h
  | some G =>
    cases allowed with
    | false => rw [predict_not hx] at h; simp at h
    | true =>
    refine ⟨rfl, rfl, q, hq, ?_⟩
    cases hs : x.simulated with
    | false =>
      have hR := (real_iff x).2 hs
      rw [predict_real hx hs hr hq hd] at h
      dsimp only at h
      by_cases hw : now < b.before ∧ m.thr < A.mul q m.rate
      · rw [if_pos hw] at h
        have h' : p = production A m x b g (A.mul q m.rate) ∧ sln = A.store (A.mul q m.rate) ∧
            res = Lifetime.goalRes m.ref m.upr now (b.before - now) := by
          cases req <;> simpa using h
        exact ⟨h'.1, ⟨hw.2, fun _ => hw.1⟩, h'.2.1, fun _ => h'.2.2, fun h => absurd hR h⟩
      · rw [if_neg hw] at h
        cases req <;> simp at h
    | true =>
      have hR := (not_real_iff x).2 hs
      rw [predict_sim hs hr hq hd] at h
      dsimp only at h
      by_cases hw : m.thr < A.mul q m.rate
      · rw [if_pos hw] at h
        have h' : p = production A m x b g (A.mul q m.rate) ∧ sln = A.store (A.mul q m.rate) ∧ res = 1 := by
          cases hcr : (m.isCmd || m.isReuse) <;> simpa [hcr] using h
        exact ⟨h'.1, ⟨hw, fun h => absurd h hR⟩, h'.2.1, fun h => absurd h hR, fun _ => h'.2.2⟩
      · rw [if_neg hw] at h
        simp at h

/-- The effects of an actual input, way by way. -/
theorem loop_actual (hx : x.pred = none) (hr : m.isReq = false) (rs : List (Option Res)) :
    (loop A m now same x allowed req wre bind rs []).1 = rs.flatMap (fun r =>
      match bind r with | some b => (predict A m now same x allowed req wre b (Res.ground r) []).1 | none => []) :=
  loop_flat (fun b g => by rw [predict_actual hx hr b g rfl]) rs

theorem guesses_actual (hx : x.pred = none) (hr : m.isReq = false) (b : Bound) (g : Option Nat) :
    guesses (predict A m now same x true req wre b g []).1 = [] ∨
      ∃ p, guesses (predict A m now same x true req wre b g []).1 = [p] ∧ p.rhs = b.rhs := by
  rw [predict_actual hx hr b g rfl]
  by_cases hb : b.before ≤ now
  · left; cases req <;> simp [guesses, hb]
  · by_cases hc : m.thr < A.mul x.cfd m.rate
    · right
      exact ⟨production A m x b g (A.mul x.cfd m.rate), by cases req <;> simp [guesses, hb, hc], rfl⟩
    · left; cases req <;> simp [guesses, hb, hc]

/-- C113, but for two things: no claim that predictions are distinct for actual inputs, and for simulations it is
assumed that those that forbid chaining give no results. In exchange an actual input gives at most one prediction for
each way to bind the model. -/
theorem C113_predictions_partial (hq : a.r ≠ .weakEnabled → Quiet x ans) :
    let es := (reduce A m now same x .positive trig bind a ans).1
    (∀ p sln res, Eff.predict p sln res ∈ es → m.isReq = false ∧ Allowed x a ans ∧
      ∃ r b q, Binds x a ans r ∧ bind r = some b ∧ Sure x q ∧ Predicts A x b (A.mul q m.rate) p ∧
        Worth m now x b (A.mul q m.rate) ∧ sln = A.store (A.mul q m.rate) ∧
        (Real x → res = Lifetime.goalRes m.ref m.upr now (b.before - now)) ∧ (¬ Real x → res = 1)) ∧
    (m.isReq = false → Allowed x a ans → ∀ r b q, Binds x a ans r → bind r = some b → Sure x q →
      Worth m now x b (A.mul q m.rate) →
      ∃ p sln res, Eff.predict p sln res ∈ es ∧ (p.rhs = b.rhs ∨ same b.rhs p.rhs = true)) ∧
    (x.pred ≠ none → C113At A m now same x bind a ans es) ∧
    (x.pred = none → ((guesses es).map Made.rhs).Sublist
      (((if a.results = [] then [none] else a.results.map some).filterMap bind).map Bound.rhs)) := by
  intro es
  have h1 : ∀ p sln res, Eff.predict p sln res ∈ es → m.isReq = false ∧ Allowed x a ans ∧
      ∃ r b q, Binds x a ans r ∧ bind r = some b ∧ Sure x q ∧ Predicts A x b (A.mul q m.rate) p ∧
        Worth m now x b (A.mul q m.rate) ∧ sln = A.store (A.mul q m.rate) ∧
        (Real x → res = Lifetime.goalRes m.ref m.upr now (b.before - now)) ∧ (¬ Real x → res = 1) := by
    intro p sln res h
    rcases reduce_mem h with h | ⟨al, w, rs, hg, h⟩
    · obtain ⟨i, d, e⟩ := stored_mem h; simp at e
    · obtain ⟨r, hr, b, d, hb, h⟩ := loop_mem h
      obtain ⟨rfl, h2, q, h3, h4, h5⟩ := predict_sound h
      refine ⟨h2, gate_allowed.1 ⟨w, rs, hg⟩, r, b, q, (gate_binds hq hg r).1 hr, hb, h3, ?_, h5⟩
      rw [h4]
      exact predicts ..
  have h2 : m.isReq = false → Allowed x a ans → ∀ r b q, Binds x a ans r → bind r = some b → Sure x q →
      Worth m now x b (A.mul q m.rate) →
      ∃ p sln res, Eff.predict p sln res ∈ es ∧ (p.rhs = b.rhs ∨ same b.rhs p.rhs = true) := by
    intro hr ha r b q hB hb hS hW
    obtain ⟨w, rs, hg⟩ := gate_allowed.2 ha
    have hm := (gate_binds hq hg r).2 hB
    show ∃ p sln res, Eff.predict p sln res ∈ (reduce A m now same x .positive trig bind a ans).1 ∧ _
    rw [reduce_some hg]
    cases hx : x.pred with
    | none =>
      have hs : x.simulated = false := by simp [In.simulated, hx]
      have hR := (real_iff x).2 hs
      rw [loop_actual hx hr]
      have hc : m.thr < A.mul x.cfd m.rate := (hS.2 hx) ▸ hW.1
      have hb' : ¬ b.before ≤ now := by have := hW.2 hR; omega
      refine ⟨production A m x b (Res.ground r) (A.mul x.cfd m.rate), A.store (A.mul x.cfd m.rate),
        Lifetime.goalRes m.ref m.upr now (b.before - now),
        List.mem_append_left _ (List.mem_flatMap.2 ⟨r, hm, ?_⟩), Or.inl rfl⟩
      rw [hb]
      dsimp only
      rw [predict_actual hx hr b _ rfl]
      simp [hc, hb']
    | some G =>
      rcases loop_complete (same := same) (req := matched a) (wre := w) hx hr hS (cands rs) [] r hm b hb hW with
        ⟨d, h, -⟩ | ⟨p, h, h'⟩
      · simp at h
      · obtain ⟨s, v, h⟩ := mem_guesses.1 h
        exact ⟨p, s, v, List.mem_append_left _ h, h'⟩
  refine ⟨h1, h2, fun hx => ⟨h1, h2, ?_⟩, ?_⟩
  · obtain ⟨G, hx⟩ := Option.ne_none_iff_exists'.1 hx
    show (guesses (reduce A m now same x .positive trig bind a ans).1).Pairwise _
    by_cases ha : Allowed x a ans
    · cases hr : m.isReq with
      | true =>
        have : guesses (reduce A m now same x .positive trig bind a ans).1 = [] := by
          rw [List.eq_nil_iff_forall_not_mem]
          intro p hp
          obtain ⟨s, v, h⟩ := mem_guesses.1 hp
          have := (h1 p s v h).1
          rw [hr] at this; simp at this
        rw [this]; exact List.Pairwise.nil
      | false =>
        obtain ⟨w, rs, hg⟩ := gate_allowed.2 ha
        rw [reduce_some hg, guesses_append, guesses_stored, List.append_nil]
        exact (loop_once hx hr _ []).1
    · have : guesses (reduce A m now same x .positive trig bind a ans).1 = [] := by
        rw [List.eq_nil_iff_forall_not_mem]
        intro p hp
        obtain ⟨s, v, h⟩ := mem_guesses.1 hp
        exact ha (h1 p s v h).2.1
      rw [this]; exact List.Pairwise.nil
  · intro hx
    have hs : x.simulated = false := by simp [In.simulated, hx]
    have hR := (real_iff x).2 hs
    by_cases hr : m.isReq = false
    · by_cases ha : Allowed x a ans
      · obtain ⟨w, rs, hg⟩ := gate_allowed.2 ha
        have hrs : rs = a.results := by
          unfold gate at hg
          rw [hs] at hg
          cases e : a.r <;> rw [e] at hg <;> simp at hg <;> exact hg.2.symm
        show ((guesses (reduce A m now same x .positive trig bind a ans).1).map Made.rhs).Sublist _
        rw [reduce_some hg, guesses_append, guesses_stored, List.append_nil, loop_actual hx hr, hrs]
        have hcs : cands a.results = if a.results = [] then [none] else a.results.map some := by
          unfold cands; cases a.results <;> simp
        rw [← hcs]
        generalize cands a.results = l
        induction l with
        | nil => exact List.Sublist.refl _
        | cons r t ih =>
          rw [List.flatMap_cons, guesses_append, List.map_append]
          cases hb : bind r with
          | none => simpa [hb, guesses] using ih
          | some b =>
            rw [List.filterMap_cons_some hb, List.map_cons]
            dsimp only
            rcases guesses_actual (A := A) (now := now) (same := same) (req := matched a) (wre := w) hx hr b
              (Res.ground r) with h | ⟨p, h, h'⟩
            · rw [h, List.map_nil, List.nil_append]
              exact ih.trans (List.sublist_cons_self _ _)
            · rw [h, List.map_singleton, List.singleton_append, h']
              exact ih.cons₂ _
      · have : guesses (reduce A m now same x .positive trig bind a ans).1 = [] := by
          rw [List.eq_nil_iff_forall_not_mem]
          intro p hp
          obtain ⟨s, v, h⟩ := mem_guesses.1 hp
          exact ha (h1 p s v h).2.1
        show ((guesses (reduce A m now same x .positive trig bind a ans).1).map Made.rhs).Sublist _
        rw [this]; exact List.nil_sublist _
    · have : guesses (reduce A m now same x .positive trig bind a ans).1 = [] := by
        rw [List.eq_nil_iff_forall_not_mem]
        intro p hp
        obtain ⟨s, v, h⟩ := mem_guesses.1 hp
        exact hr (h1 p s v h).1
      show ((guesses (reduce A m now same x .positive trig bind a ans).1).map Made.rhs).Sublist _
      rw [this]; exact List.nil_sublist _


/-! ### C113: cases -/

/-- A model that expects 1/2 of its predictions to come true, in a group of threshold 1/10. -/
def m₁ : Mdl := { rate := 1/2, thr := 1/10, upr := 1000, ref := 0, wr := 1, sr := 1 }
def x₁ : In := { id := 1, cfd := 1 }
def e₁ : Entry := ⟨5, false, 0, 1000, 1, 7, true⟩
def e₂ : Entry := ⟨6, false, 0, 1000, 1, 7, true⟩
/-- Two requirements that bind the right-hand side alike. -/
def bind₁ : Option Res → Option Bound := fun _ => some { rhs := 9, before := 5000, inst := 3 }
def a₁ : Acc := { r := .weakEnabled, results := [.weak e₁, .weak e₂], weak := [e₁, e₂] }

/-- C113 fails: an actual input and two requirements in force make the model predict the same thing twice, each
prediction being monitored; and a simulation that forbids the prediction binds what another allows. -/
theorem C113_predictions_violated : ¬ C113_full ∧
    (guesses (reduce F32.exact m₁ 100 (· == ·) x₁ .positive false bind₁ a₁ (fun _ => a₁)).1).map
      (fun p => (p.rhs, p.cfd)) = [(9, 1/2), (9, 1/2)] ∧
    (guesses (reduce F32.exact m₁ 100 (· == ·) { id := 2, cfd := 1, pred := some ⟨1, [40, 41], []⟩ } .positive false
        (fun r => if r = some (.strong none) then some { rhs := 9, before := 5000, inst := 3 } else none)
        { r := .noRequirement } (fun s => if s = 40 then { r := .strongNoWeak, results := [.strong none] }
          else { r := .weakEnabled, results := [.weak e₁] })).1).map (fun p => (p.rhs, p.sims)) = [(9, [40, 41])] := by
  have h : (guesses (reduce F32.exact m₁ 100 (· == ·) x₁ .positive false bind₁ a₁ (fun _ => a₁)).1).map
      (fun p => (p.rhs, p.cfd)) = [(9, 1/2), (9, 1/2)] := by decide +kernel
  refine ⟨fun hf => ?_, h, by decide +kernel⟩
  have h1 := (hf F32.exact m₁ 100 (· == ·) x₁ false bind₁ a₁ (fun _ => a₁)).once
  have h2 : (guesses (reduce F32.exact m₁ 100 (· == ·) x₁ .positive false bind₁ a₁ (fun _ => a₁)).1).map Made.rhs =
      [9, 9] := by decide +kernel
  have h3 := (List.pairwise_map (f := Made.rhs) (R := fun p q : Nat => (q == p) = false)).2 h1
  rw [h2] at h3
  simp at h3

/-- A simulated prediction meets the conditions of `C113_predictions_partial`: it is in two simulations, the second
of which allows chaining, for two requirements that bind the right-hand side differently, and for one that binds it as
the first. -/
theorem C113_nonvacuous :
    let x : In := { id := 2, cfd := 1, pred := some ⟨1/2, [40, 41], [77]⟩ }
    let ans : Nat → Acc := fun s => if s = 40 then { r := .weakDisabled }
      else { r := .weakEnabled, results := [.weak e₁, .weak e₂, .weak e₁] }
    let bind : Option Res → Option Bound := fun r =>
      if r = some (.weak e₁) then some { rhs := 9, before := 50, inst := 3 }
      else some { rhs := 10, before := 5000, inst := 3 }
    (({ r := .noRequirement } : Acc).r ≠ .weakEnabled → Quiet x ans) ∧
    (guesses (reduce F32.exact m₁ 100 (· == ·) x .positive false bind { r := .noRequirement } ans).1).map
      (fun p => (p.rhs, p.cfd, p.sims)) = [(9, 1/4, [40, 41]), (10, 1/4, [40, 41])] := by
  refine ⟨fun _ s hs hn => ?_, by decide +kernel⟩
  simp [In.sims] at hs
  rcases hs with rfl | rfl
  · rfl
  · exact absurd (Or.inl rfl) hn

/-! ## C114 -/

/-- What an actual input leads to, for each way to bind the model. -/
theorem seg_raters (hx : x.pred = none) (hr : m.isReq = false) (b : Bound) (g : Option Nat) :
    let es := (predict A m now same x allowed req wre b g []).1
    raters es = guesses es ∧ (∀ p ∈ guesses es, Eff.rdx x.id g p ∈ es) ∧
      (∀ p, p ∈ watched es → req = true → Eff.active p ∈ es) ∧
      (∀ p, Eff.active p ∈ es → p ∈ watched es ∨ allowed = true ∧ b.before ≤ now) := by
  intro es
  have he : es = _ := congrArg Prod.fst (predict_actual hx hr b g (done := []) rfl)
  rw [he]
  dsimp only
  cases allowed with
  | false => cases req <;> simp [raters, guesses, watched]
  | true =>
    by_cases hb : b.before ≤ now
    · cases req <;> simp [raters, guesses, watched, hb]
    · by_cases hc : m.thr < A.mul x.cfd m.rate
      · cases req <;> simp [raters, guesses, watched, hb, hc]
      · cases req <;> simp [raters, guesses, watched, hb, hc]

theorem flat_raters (hx : x.pred = none) (hr : m.isReq = false) (l : List (Option Res)) :
    raters (l.flatMap (fun r => match bind r with
      | some b => (predict A m now same x allowed req wre b (Res.ground r) []).1 | none => [])) =
    guesses (l.flatMap (fun r => match bind r with
      | some b => (predict A m now same x allowed req wre b (Res.ground r) []).1 | none => [])) := by
  induction l with
  | nil => rfl
  | cons r t ih =>
    rw [List.flatMap_cons, raters_append, guesses_append, ih]
    cases hb : bind r with
    | none => rfl
    | some b => dsimp only; rw [(seg_raters hx hr b (Res.ground r)).1]

theorem no_watch (hx : x.pred ≠ none) {b : Bound} {g : Option Nat} {d : List Nat} {p : Made} {u v : Bool} :
    Eff.monitor p u v ∉ (predict A m now same x allowed req wre b g d).1 := by
  intro h
  obtain ⟨G, hx⟩ := Option.ne_none_iff_exists'.1 hx
  cases hd : d.any (same b.rhs) with
  | true => rw [predict_done hd] at h; simp at h
  | false =>
  cases hr : m.isReq with
  | true =>
    rw [predict_req hr b g hd] at h
    dsimp only at h
    split at h <;> simp at h
  | false =>
  obtain ⟨q, hq, -⟩ := sure x
  cases allowed with
  | false => rw [predict_not hx] at h; simp at h
  | true =>
  cases hs : x.simulated with
  | false =>
    rw [predict_real hx hs hr hq hd] at h
    dsimp only at h
    split at h <;> cases req <;> simp at h
  | true =>
    rw [predict_sim hs hr hq hd] at h
    dsimp only at h
    split at h
    · cases hcr : (m.isCmd || m.isReuse) <;> rw [hcr] at h <;> simp at h
    · simp at h

/-- C114, but for predictions that come too late and for those made from predictions: for these a requirement is
held to account although nothing follows them. -/
theorem C114_followed_partial (hr : m.isReq = false) :
    let es := (reduce A m now same x .positive trig bind a ans).1
    (x.pred = none → raters es = guesses es) ∧
    (∀ p, p ∈ guesses es → x.pred = none → ∃ g, Eff.rdx x.id g p ∈ es) ∧
    (x.pred ≠ none → watched es = []) ∧
    (∀ p, p ∈ watched es → (a.weak ≠ [] ∨ a.strong ≠ []) → Eff.active p ∈ es) ∧
    (x.pred = none → (Allowed x a ans → ∀ r b, Binds x a ans r → bind r = some b → now < b.before) →
      ∀ p, Eff.active p ∈ es → p ∈ watched es) ∧
    (x.pred = none → ∀ r b, Binds x a ans r → bind r = some b →
      (Allowed x a ans → now < b.before → ∃ p rates, Predicts A x b (A.mul x.cfd m.rate) p ∧
        Eff.monitor p true rates ∈ es ∧ (rates = true ↔ m.thr < A.mul x.cfd m.rate)) ∧
      (¬ Allowed x a ans → m.hasTpl = false → ∃ p, Predicts A x b 0 p ∧ Eff.monitor p false false ∈ es)) := by
  intro es
  have heach : x.pred = none → ∀ r b, Binds x a ans r → bind r = some b →
      (Allowed x a ans → now < b.before → ∃ p rates, Predicts A x b (A.mul x.cfd m.rate) p ∧
        Eff.monitor p true rates ∈ es ∧ (rates = true ↔ m.thr < A.mul x.cfd m.rate)) ∧
      (¬ Allowed x a ans → m.hasTpl = false → ∃ p, Predicts A x b 0 p ∧ Eff.monitor p false false ∈ es) := by
    intro hx r b hB hb
    have hs : x.simulated = false := by simp [In.simulated, hx]
    have hnil : x.sims = [] := by simp [In.sims, hx]
    refine ⟨fun ha hn => ?_, fun ha ht => ?_⟩
    · obtain ⟨w, rs, hg⟩ := gate_allowed.2 ha
      have hm := (gate_binds (fun _ s hs' => by rw [hnil] at hs'; simp at hs') hg r).2 hB
      refine ⟨_, decide (m.thr < A.mul x.cfd m.rate), predicts A m x b (Res.ground r) _, ?_, by simp⟩
      show _ ∈ (reduce A m now same x .positive trig bind a ans).1
      rw [reduce_some hg, loop_actual hx hr]
      refine List.mem_append_left _ (List.mem_flatMap.2 ⟨r, hm, ?_⟩)
      rw [hb]
      dsimp only
      rw [predict_actual hx hr b _ rfl]
      simp [show ¬ b.before ≤ now by omega]
    · have hg : ∃ w rs, gate m x a ans = some (false, w, rs) := by
        have hn : ¬ ∃ w rs, gate m x a ans = some (true, w, rs) := fun h => ha (gate_allowed.1 h)
        unfold gate at hn ⊢
        rw [hs, ht] at hn ⊢
        cases e : a.r <;> rw [e] at hn <;> simp at hn ⊢
      obtain ⟨w, rs, hg⟩ := hg
      have hm := (gate_binds (fun _ s hs' => by rw [hnil] at hs'; simp at hs') hg r).2 hB
      refine ⟨_, predicts A m x b (Res.ground r) _, ?_⟩
      show _ ∈ (reduce A m now same x .positive trig bind a ans).1
      rw [reduce_some hg, loop_actual hx hr]
      refine List.mem_append_left _ (List.mem_flatMap.2 ⟨r, hm, ?_⟩)
      rw [hb]
      dsimp only
      rw [predict_actual hx hr b _ rfl]
      simp
  have hreq : (a.weak ≠ [] ∨ a.strong ≠ []) → matched a = true := by
    intro h
    unfold matched
    rcases h with h | h
    · cases e : a.weak with
      | nil => exact absurd e h
      | cons => simp
    · cases e : a.strong with
      | nil => exact absurd e h
      | cons => simp
  have hno : x.pred ≠ none → watched es = [] := by
    intro hx
    rw [List.eq_nil_iff_forall_not_mem]
    intro p hp
    obtain ⟨u, v, h⟩ := mem_watched.1 hp
    rcases reduce_mem h with h | ⟨al, w, rs, hg, h⟩
    · obtain ⟨i, d, e⟩ := stored_mem h; simp at e
    · obtain ⟨r, -, b, d, hb, h⟩ := loop_mem h
      exact no_watch hx h
  cases hg : gate m x a ans with
  | none =>
    have he : es = stored x trig := by
      show (reduce A m now same x .positive trig bind a ans).1 = _
      unfold reduce; rw [hg]
    rw [he] at hno heach ⊢
    refine ⟨fun _ => by rw [raters_stored, guesses_stored], ?_, hno, ?_, ?_, heach⟩
    · intro p hp; rw [guesses_stored] at hp; simp at hp
    · intro p hp; rw [watched_stored] at hp; simp at hp
    · intro _ _ p hp
      obtain ⟨i, d, e⟩ := stored_mem hp; simp at e
  | some y =>
    obtain ⟨al, w, rs⟩ := y
    have he : es = _ := reduce_some hg
    refine ⟨fun hx => ?_, fun p hp hx => ?_, hno, fun p hp ha => ?_, fun hx ht p hp => ?_, heach⟩
    · rw [he, raters_append, guesses_append, raters_stored, guesses_stored, loop_actual hx hr, flat_raters hx hr]
    · rw [he, guesses_append, guesses_stored, List.append_nil, loop_actual hx hr] at hp
      obtain ⟨s, v, h⟩ := mem_guesses.1 hp
      obtain ⟨r, h1, h2⟩ := List.mem_flatMap.1 h
      refine ⟨Res.ground r, ?_⟩
      rw [he, loop_actual hx hr]
      refine List.mem_append_left _ (List.mem_flatMap.2 ⟨r, h1, ?_⟩)
      cases hb : bind r with
      | none => rw [hb] at h2; simp at h2
      | some b =>
        rw [hb] at h2
        exact (seg_raters hx hr b (Res.ground r)).2.1 p (mem_guesses.2 ⟨_, _, h2⟩)
    · by_cases hx : x.pred = none
      · rw [he, watched_append, watched_stored, List.append_nil, loop_actual hx hr] at hp
        obtain ⟨s, v, h⟩ := mem_watched.1 hp
        obtain ⟨r, h1, h2⟩ := List.mem_flatMap.1 h
        rw [he, loop_actual hx hr]
        refine List.mem_append_left _ (List.mem_flatMap.2 ⟨r, h1, ?_⟩)
        cases hb : bind r with
        | none => rw [hb] at h2; simp at h2
        | some b =>
          rw [hb] at h2
          exact (seg_raters hx hr b (Res.ground r)).2.2.1 p (mem_watched.2 ⟨_, _, h2⟩) (hreq ha)
      · rw [hno hx] at hp; simp at hp
    · have hs : x.simulated = false := by simp [In.simulated, hx]
      have hnil : x.sims = [] := by simp [In.sims, hx]
      rcases reduce_mem hp with h | ⟨al', w', rs', hg', h⟩
      · obtain ⟨i, d, e⟩ := stored_mem h; simp at e
      · rw [hg] at hg'
        cases hg'
        rw [loop_actual hx hr] at h
        obtain ⟨r, h1, h2⟩ := List.mem_flatMap.1 h
        rw [he, watched_append, watched_stored, List.append_nil, loop_actual hx hr]
        cases hb : bind r with
        | none => rw [hb] at h2; simp at h2
        | some b =>
          rw [hb] at h2
          rcases (seg_raters hx hr b (Res.ground r)).2.2.2 p h2 with h3 | ⟨rfl, h3⟩
          · obtain ⟨u, v, h4⟩ := mem_watched.1 h3
            exact mem_watched.2 ⟨u, v, List.mem_flatMap.2 ⟨r, h1, by rw [hb]; exact h4⟩⟩
          · have := ht (gate_allowed.1 ⟨w, rs, hg⟩) r b
              ((gate_binds (fun _ s hs' => by rw [hnil] at hs'; simp at hs') hg r).1 h1) hb
            omega

/-- C114 fails: the requirement for a prediction made from a prediction is held to account and stays so, since no
monitor tells the outcome; and so when the predicted time has passed. -/
theorem C114_followed_violated : ¬ C114_full ∧
    (reduce F32.exact m₁ 100 (· == ·) { id := 2, cfd := 1, pred := some ⟨1, [], []⟩ } .positive true bind₁
      { a₁ with results := [.weak e₁] } (fun _ => a₁)).1.length = 3 ∧
    watched (reduce F32.exact m₁ 100 (· == ·) { id := 2, cfd := 1, pred := some ⟨1, [], []⟩ } .positive true bind₁
      { a₁ with results := [.weak e₁] } (fun _ => a₁)).1 = [] ∧
    (reduce F32.exact m₁ 5000 (· == ·) x₁ .positive true bind₁
      { a₁ with results := [.weak e₁] } (fun _ => a₁)).1 = [.active (production F32.exact m₁ x₁
        { rhs := 9, before := 5000, inst := 3 } (some 5) (1/2))] := by
  have h : (reduce F32.exact m₁ 5000 (· == ·) x₁ .positive true bind₁
      { a₁ with results := [.weak e₁] } (fun _ => a₁)).1 = [.active (production F32.exact m₁ x₁
        { rhs := 9, before := 5000, inst := 3 } (some 5) (1/2))] := by decide +kernel
  refine ⟨fun hf => ?_, by decide +kernel, by decide +kernel, h⟩
  have h1 := (hf F32.exact m₁ 5000 (· == ·) x₁ true bind₁ { a₁ with results := [.weak e₁] } (fun _ => a₁) rfl).follow
  rw [h] at h1
  have := h1 _ List.mem_cons_self
  simp [watched] at this

/-- An actual input meets the conditions: a requirement is in force, the prediction is made, followed, and the
requirement is held to account. -/
theorem C114_nonvacuous :
    let a : Acc := { a₁ with results := [.weak e₁] }
    let es := (reduce F32.exact m₁ 100 (· == ·) x₁ .positive true bind₁ a (fun _ => a)).1
    m₁.isReq = false ∧ x₁.pred = none ∧
    (Allowed x₁ a (fun _ => a) → ∀ r b, Binds x₁ a (fun _ => a) r → bind₁ r = some b → (100 : Int) < b.before) ∧
    (raters es).length = 1 ∧ (guesses es).length = 1 ∧ es.length = 6 := by
  refine ⟨rfl, rfl, fun _ r b _ hb => ?_, by decide +kernel, by decide +kernel, by decide +kernel⟩
  simp [bind₁] at hb
  rw [← hb]
  decide

/-! ## C115 -/

theorem inst_primary {b : Bound} {g : Option Nat} {d : List Nat} {i : Nat} {w : Bool} {o : Option (List Nat × List Nat)}
    {G : Grp} {sln : Rat} {res : Int}
    (h : Eff.inst i w o G sln res ∈ (predict A m now same x allowed req wre b g d).1) : G = .primary := by
  unfold predict at h
  split at h
  · simp at h
  · split at h
    · simp at h
    · dsimp only at h
      split at h
      · simp at h
      · split at h
        · split at h
          · cases req <;> simp at h
          · split at h
            · cases req <;> simp at h
            · split at h
              · split at h
                · cases req <;> simp at h <;> exact h.2.2.2.1
                · cases req <;> simp at h
              · cases req <;> simp at h <;> rcases h with h | h
                exacts [h.2.2.2.2.1, h.2.2.2.1, h.2.2.2.2.1, h.2.2.2.1]
        · split at h
          · cases hcr : (m.isCmd || m.isReuse) <;> rw [hcr] at h <;> simp at h
            exact h.2.2.2.1
          · simp at h

/-- What holds of C115: the instance is shown to the group of the model, with the prediction and without. -/
theorem C115_instance_partial (hr : m.isReq = false) (hx : x.pred = none) (ha : Allowed x a ans)
    {r : Option Res} {b : Bound} (hB : Binds x a ans r) (hb : bind r = some b) (hn : now < b.before) :
    ∃ wre sln res, Eff.inst b.inst wre none .primary sln res ∈
      (reduce A m now same x .positive trig bind a ans).1 := by
  have hnil : x.sims = [] := by simp [In.sims, hx]
  obtain ⟨w, rs, hg⟩ := gate_allowed.2 ha
  have hm := (gate_binds (fun _ s hs' => by rw [hnil] at hs'; simp at hs') hg r).2 hB
  refine ⟨w, A.store (A.mul x.cfd m.rate), 1, ?_⟩
  rw [reduce_some hg, loop_actual hx hr]
  refine List.mem_append_left _ (List.mem_flatMap.2 ⟨r, hm, ?_⟩)
  rw [hb]
  dsimp only
  rw [predict_actual hx hr b _ rfl]
  simp [show ¬ b.before ≤ now by omega]

/-- C115 fails: whatever the input, nothing is ever shown to the secondary group. -/
theorem C115_instance_violated : ¬ C115_full ∧
    ∀ A m now same x lhs trig bind a ans i w o sln res,
      Eff.inst i w o .secondary sln res ∉ (reduce A m now same x lhs trig bind a ans).1 := by
  have h : ∀ A m now same x lhs trig bind a ans i w o sln res,
      Eff.inst i w o .secondary sln res ∉ (reduce A m now same x lhs trig bind a ans).1 := by
    intro A m now same x lhs trig bind a ans i w o sln res h
    cases lhs with
    | failure => simp [reduce] at h
    | negative =>
      obtain ⟨i, d, e⟩ := stored_mem (show _ ∈ stored x trig from h); simp at e
    | positive =>
      rcases reduce_mem h with h | ⟨al, w, rs, hg, h⟩
      · obtain ⟨i, d, e⟩ := stored_mem h; simp at e
      · obtain ⟨r, -, b, d, hb, h⟩ := loop_mem h
        have := inst_primary h
        simp at this
  refine ⟨fun hf => ?_, h⟩
  have hR : Real x₁ := (real_iff x₁).2 rfl
  obtain ⟨-, w, sln, res, h1⟩ := hf F32.exact m₁ 100 (· == ·) x₁ true bind₁ a₁ (fun _ => a₁) (some (.weak e₁))
    { rhs := 9, before := 5000, inst := 3 } rfl rfl ⟨fun _ => Or.inl rfl, fun h => absurd hR h⟩
    ⟨fun _ => Or.inl ⟨.weak e₁, List.mem_cons_self, rfl⟩, fun h => absurd hR h⟩ rfl (by decide)
  exact h _ _ _ _ _ _ _ _ _ _ _ _ _ _ _ h1

theorem C115_nonvacuous : m₁.isReq = false ∧ x₁.pred = none ∧ Allowed x₁ a₁ (fun _ => a₁) ∧
    Binds x₁ a₁ (fun _ => a₁) (some (.weak e₁)) ∧
    (reduce F32.exact m₁ 100 (· == ·) x₁ .positive true (fun r => if r = some (.weak e₁) then bind₁ r else none) a₁
      (fun _ => a₁)).1.countP (fun e => match e with | .inst 3 false none .primary _ _ => true | _ => false) = 2 := by
  have hR : Real x₁ := (real_iff x₁).2 rfl
  exact ⟨rfl, rfl, ⟨fun _ => Or.inl rfl, fun h => absurd hR h⟩,
    ⟨fun _ => Or.inl ⟨.weak e₁, List.mem_cons_self, rfl⟩, fun h => absurd hR h⟩, by decide +kernel⟩

/-! ## C116 -/

theorem loop_req (hr : m.isReq = true) (rs : List (Option Res)) :
    (loop A m now same x allowed req wre bind rs []).1 = rs.flatMap (fun r =>
      match bind r with | some b => (predict A m now same x allowed req wre b (Res.ground r) []).1 | none => []) :=
  loop_flat (fun b g => by rw [predict_req hr b g rfl]) rs

/-- C116 for productions, but for simulations that forbid chaining and yet give bindings. -/
theorem C116_requirements_partial (hr : m.isReq = true) (hq : a.r ≠ .weakEnabled → Quiet x ans) :
    C116At A m x bind a ans (reduce A m now same x .positive trig bind a ans).1 := by
  let es := (reduce A m now same x .positive trig bind a ans).1
  refine ⟨fun e he => ?_, fun p ok he => ?_, fun r b hB hb => ⟨fun ha => ?_, fun ha hx ht => ?_⟩⟩
  · rcases reduce_mem he with h | ⟨al, w, rs, hg, h⟩
    · exact Or.inr (Or.inr (stored_mem h))
    · rw [loop_req hr] at h
      obtain ⟨r, h1, h2⟩ := List.mem_flatMap.1 h
      cases hb : bind r with
      | none => rw [hb] at h2; simp at h2
      | some b =>
        rw [hb] at h2
        dsimp only at h2
        rw [predict_req hr b _ rfl] at h2
        dsimp only at h2
        cases hc : confidence A m x al with
        | none => rw [hc] at h2; simp at h2
        | some c =>
          rw [hc] at h2
          simp at h2
          rcases h2 with h2 | h2
          · exact Or.inl ⟨_, h2⟩
          · exact Or.inr (Or.inl ⟨_, _, h2⟩)
  · rcases reduce_mem he with h | ⟨al, w, rs, hg, h⟩
    · obtain ⟨i, d, e⟩ := stored_mem h; simp at e
    · have h0 := h
      rw [loop_req hr] at h
      obtain ⟨r, h1, h2⟩ := List.mem_flatMap.1 h
      cases hb : bind r with
      | none => rw [hb] at h2; simp at h2
      | some b =>
        rw [hb] at h2
        dsimp only at h2
        rw [predict_req hr b _ rfl] at h2
        dsimp only at h2
        cases hc : confidence A m x al with
        | none => rw [hc] at h2; simp at h2
        | some c =>
          rw [hc] at h2
          simp at h2
          obtain ⟨h2, rfl⟩ := h2
          refine ⟨?_, ?_, r, b, c, (gate_binds hq hg r).1 h1, hb, h2 ▸ predicts .., ?_, ?_⟩
          · show _ ∈ (reduce A m now same x .positive trig bind a ans).1
            rw [reduce_some hg, loop_req hr]
            refine List.mem_append_left _ (List.mem_flatMap.2 ⟨r, h1, ?_⟩)
            rw [hb]
            dsimp only
            rw [predict_req hr b _ rfl, hc, h2]
            exact List.mem_cons_self
          · rw [← gate_allowed (m := m)]
            constructor
            · intro h; exact ⟨w, rs, by rw [hg, h]⟩
            · rintro ⟨w', rs', h⟩
              rw [hg] at h
              cases h; rfl
          · intro h
            subst h
            obtain ⟨q, hq, h⟩ := sure x
            rw [h] at hc
            exact ⟨q, hq, (Option.some.inj hc).symm⟩
          · intro h
            subst h
            unfold confidence at hc
            cases hx : x.pred with
            | none => rw [hx] at hc; simp at hc; exact ⟨hc.symm, rfl⟩
            | some g => rw [hx] at hc; simp at hc
  · obtain ⟨w, rs, hg⟩ := gate_allowed.2 ha
    obtain ⟨q, hS, hc⟩ := sure x
    refine ⟨q, _, hS, predicts A m x b (Res.ground r) _, ?_⟩
    show _ ∈ (reduce A m now same x .positive trig bind a ans).1
    rw [reduce_some hg, loop_req hr]
    refine List.mem_append_left _ (List.mem_flatMap.2 ⟨r, (gate_binds hq hg r).2 hB, ?_⟩)
    rw [hb]
    dsimp only
    rw [predict_req hr b _ rfl, hc]
    exact List.mem_cons_of_mem _ List.mem_cons_self
  · have hs : x.simulated = false := by simp [In.simulated, hx]
    have hg : ∃ w rs, gate m x a ans = some (false, w, rs) := by
      have hn : ¬ ∃ w rs, gate m x a ans = some (true, w, rs) := fun h => ha (gate_allowed.1 h)
      unfold gate at hn ⊢
      rw [hs, ht] at hn ⊢
      cases e : a.r <;> rw [e] at hn <;> simp at hn ⊢
    obtain ⟨w, rs, hg⟩ := hg
    refine ⟨_, predicts A m x b (Res.ground r) _, ?_⟩
    show _ ∈ (reduce A m now same x .positive trig bind a ans).1
    rw [reduce_some hg, loop_req hr]
    refine List.mem_append_left _ (List.mem_flatMap.2 ⟨r, (gate_binds hq hg r).2 hB, ?_⟩)
    rw [hb]
    dsimp only
    rw [predict_req hr b _ rfl]
    simp [confidence, hx]

/-- C116: the controller given a requirement keeps it once, apart for positive and negative ones and for simulations;
what is no simulation is given to the secondary controller too, and positive ones wake the monitors of goals and the
cached evidence. -/
theorem C116_kept (contra : Nat → Bool) (ws : List Weak) (p : Made) (ok : Bool) :
    let ks := storeRequirement m contra ws p ok
    (∀ c ok', Kept.keep .primary c ok' ∈ ks ↔ ok' = ok ∧
      ((c = .positive ∧ p.positive = true ∧ p.sims = []) ∨ (c = .negative ∧ p.positive = false ∧ p.sims = []) ∨
       (c = .simPositive ∧ p.positive = true ∧ p.sims ≠ []) ∨ (c = .simNegative ∧ p.positive = false ∧ p.sims ≠ []))) ∧
    (∀ c ok', Kept.keep .secondary c ok' ∈ ks ↔ ok' = ok ∧ p.sims = [] ∧
      ((c = .positive ∧ p.positive = true) ∨ (c = .negative ∧ p.positive = false))) ∧
    (Kept.wake .primary ∈ ks ↔ p.positive = true) ∧ (Kept.wake .secondary ∈ ks ↔ p.positive = true ∧ p.sims = []) ∧
    (∀ i, Kept.withdraw i ∈ ks → p.positive = false ∧ ∃ e ∈ ws, e.id = i ∧ e.used = true ∧ contra i = true ∧
      e.cfd ≤ p.cfd ∧ ∃ s ∈ p.sims, s ∈ e.sims) := by
  have hK : ∀ k, k ∈ storeRequirement m contra ws p ok ↔
      (k = .keep .primary (match p.positive, !p.sims.isEmpty with
        | true, true => .simPositive | true, false => .positive
        | false, true => .simNegative | false, false => .negative) ok) ∨
      (∃ s, p.sims = [s] ∧ p.positive = false ∧ 0 < m.wr ∧ 0 < m.sr ∧ ∃ e ∈ ws, e.used = true ∧ s ∈ e.sims ∧
        contra e.id = true ∧ e.cfd ≤ p.cfd ∧ k = .withdraw e.id) ∨
      (p.positive = true ∧ k = .wake .primary) ∨ (p.sims = [] ∧ k ∈ storeSecondary p ok) := by
    intro k
    unfold storeRequirement defeated
    rcases hp : p.sims with _ | ⟨s, _ | ⟨s', t⟩⟩
    · cases hpos : p.positive <;> simp
    · cases hpos : p.positive
      · by_cases hw : 0 < m.wr ∧ 0 < m.sr
        · simp only [hw.1, hw.2, Bool.not_false, decide_true, Bool.and_self, if_true, List.mem_append,
            List.mem_map, List.mem_filter, Bool.and_eq_true, decide_eq_true_eq, List.contains_iff_mem]
          simp
          constructor
          · rintro (h | ⟨e, ⟨h1, h2⟩, h3⟩)
            · exact Or.inl h
            · exact Or.inr ⟨e, h1, h2.1.1.1, h2.1.1.2, h2.1.2, h2.2, h3.symm⟩
          · rintro (h | ⟨e, h1, h2, h3, h4, h5, h6⟩)
            · exact Or.inl h
            · exact Or.inr ⟨e, ⟨h1, ⟨⟨⟨h2, h3⟩, h4⟩, h5⟩⟩, h6.symm⟩
        · have hw' : (decide (0 < m.wr) && decide (0 < m.sr)) = false := by
            rw [Bool.and_eq_false_iff]
            simp only [decide_eq_false_iff_not]
            by_cases h : 0 < m.wr
            · exact Or.inr fun h' => hw ⟨h, h'⟩
            · exact Or.inl h
          simp only [Bool.not_false, Bool.true_and, hw']
          simp
          intro h1 h2
          exact absurd ⟨h1, h2⟩ hw
      · simp
    · cases hpos : p.positive <;> simp
  have hS : ∀ k, k ∈ storeSecondary p ok ↔ (p.positive = true ∧ (k = .keep .secondary .positive ok ∨ k = .wake .secondary)) ∨
      (p.positive = false ∧ k = .keep .secondary .negative ok) := by
    intro k
    unfold storeSecondary
    cases p.positive <;> simp
  intro ks
  refine ⟨fun c ok' => ?_, fun c ok' => ?_, ?_, ?_, fun i hi => ?_⟩
  · rw [hK, hS]
    cases p.positive <;> rcases p.sims with _ | ⟨s, t⟩ <;> simp [and_comm]
  · rw [hK, hS]
    cases p.positive <;> rcases p.sims with _ | ⟨s, t⟩ <;> simp [and_comm]
  · rw [hK, hS]
    cases p.positive <;> rcases p.sims with _ | ⟨s, t⟩ <;> simp
  · rw [hK, hS]
    cases p.positive <;> rcases p.sims with _ | ⟨s, t⟩ <;> simp
  · rcases (hK _).1 hi with h | ⟨s, h1, h2, -, -, e, h3, h4, h5, h6, h7, h8⟩ | h | h
    · simp at h
    · simp at h8
      exact ⟨h2, e, h3, h8.symm, h4, h8 ▸ h6, h7, s, by rw [h1]; exact List.mem_singleton_self _, h5⟩
    · simp at h
    · rw [hS] at h; simp at h

/-- C116 fails: what a simulation forbids is handed over as allowed by another. -/
theorem C116_requirements_violated : ¬ C116_full ∧
    (reduce F32.exact { m₁ with isReq := true } 100 (· == ·) { id := 2, cfd := 1, pred := some ⟨1, [40, 41], []⟩ }
        .positive false (fun r => if r = some (.strong none) then some { rhs := 9, before := 5000, inst := 3 } else none)
        { r := .noRequirement } (fun s => if s = 40 then { r := .strongNoWeak, results := [.strong none] }
          else { r := .weakEnabled, results := [.weak e₁] })).1 =
      [.rdx 2 none ⟨9, true, 5000, 1/2, [40, 41], [], []⟩, .require ⟨9, true, 5000, 1/2, [40, 41], [], []⟩ true] := by
  have h : (reduce F32.exact { m₁ with isReq := true } 100 (· == ·) { id := 2, cfd := 1, pred := some ⟨1, [40, 41], []⟩ }
        .positive false (fun r => if r = some (.strong none) then some { rhs := 9, before := 5000, inst := 3 } else none)
        { r := .noRequirement } (fun s => if s = 40 then { r := .strongNoWeak, results := [.strong none] }
          else { r := .weakEnabled, results := [.weak e₁] })).1 =
      [.rdx 2 none ⟨9, true, 5000, 1/2, [40, 41], [], []⟩, .require ⟨9, true, 5000, 1/2, [40, 41], [], []⟩ true] := by
    decide +kernel
  refine ⟨fun hf => ?_, h⟩
  have h1 := (hf F32.exact { m₁ with isReq := true } 100 (· == ·) { id := 2, cfd := 1, pred := some ⟨1, [40, 41], []⟩ }
    false (fun r => if r = some (.strong none) then some { rhs := 9, before := 5000, inst := 3 } else none)
        { r := .noRequirement } (fun s => if s = 40 then { r := .strongNoWeak, results := [.strong none] }
          else { r := .weakEnabled, results := [.weak e₁] }) rfl).handed
  rw [h] at h1
  obtain ⟨-, -, r, b, c, h2, h3, -⟩ := h1 _ _ (List.mem_cons_of_mem _ List.mem_cons_self)
  obtain ⟨s, ⟨l₁, l₂, -, h4, -⟩, h5⟩ := h2.2 (by intro h; have := h.1 _ rfl; simp at this) (by simp)
  by_cases hs : s = 40
  · subst hs
    rcases h4 with h4 | h4 <;> simp at h4
  · dsimp only at h5
    rw [if_neg hs] at h5
    rcases h5 with ⟨y, hy, rfl⟩ | ⟨h5, -⟩
    · simp at hy
      subst hy
      simp at h3
    · simp at h5

/-- A requirement that is not allowed, and one that is, for an actual input; what is kept of it. -/
theorem C116_nonvacuous :
    let m : Mdl := { m₁ with isReq := true }
    let es := (reduce F32.exact m 100 (· == ·) x₁ .positive true bind₁ { r := .weakDisabled } (fun _ => a₁)).1
    let es' := (reduce F32.exact m 100 (· == ·) x₁ .positive true bind₁ a₁ (fun _ => a₁)).1
    (∀ s ∈ x₁.sims, ¬ Allows a₁ → a₁.results = []) ∧
    es = [.rdx 1 none ⟨9, true, 5000, 0, [], [], []⟩, .require ⟨9, true, 5000, 0, [], [], []⟩ false] ∧
    es'.length = 4 ∧ Eff.require ⟨9, true, 5000, 1/2, [], [], []⟩ true ∈ es' ∧
    storeRequirement m (fun _ => true) [] ⟨9, true, 5000, 1/2, [], [], []⟩ true =
      [.keep .primary .positive true, .wake .primary, .keep .secondary .positive true, .wake .secondary] := by
  refine ⟨by simp [In.sims, x₁], by decide +kernel, by decide +kernel, by decide +kernel, by decide +kernel⟩

/-! ## C117 -/

/-- What holds of C117: predictions, though not the instances of the model, depend on the requirement, and on all that
the input depends on; a strong requirement predicted in a single simulation withdraws what it defeats. -/
theorem C117_defeat_partial :
    (∀ (A : Arith) m now same x trig bind a ans, 0 < m.wr → 0 < m.sr → ¬ Real x → (a.r ≠ .weakEnabled → Quiet x ans) →
      ∀ p sln res, Eff.predict p sln res ∈ (reduce A m now same x .positive trig bind a ans).1 →
        (∃ r b, Binds x a ans r ∧ bind r = some b ∧ p.rhs = b.rhs ∧ (∀ e, r = some (.weak e) → e.id ∈ p.validities)) ∧
        (∀ g v, x.pred = some g → v ∈ g.validities → v ∈ p.validities)) ∧
    (∀ (m : Mdl) (contra : Nat → Bool) (ws : List Weak) (p : Made) (allowed : Bool) (s : Nat), p.positive = false →
      0 < m.wr → 0 < m.sr → p.sims = [s] → ∀ e ∈ ws, e.used = true → s ∈ e.sims → contra e.id = true →
      e.cfd ≤ p.cfd → Kept.withdraw e.id ∈ storeRequirement m contra ws p allowed) := by
  constructor
  · intro A m now same x trig bind a ans hw hs hR hq p sln res h
    have hsim := (not_real_iff x).1 hR
    rcases reduce_mem h with h | ⟨al, w, rs, hg, h⟩
    · obtain ⟨i, d, e⟩ := stored_mem h; simp at e
    · obtain ⟨r, h1, b, d, hb, h⟩ := loop_mem h
      obtain ⟨-, h2, q, -, h3, -⟩ := predict_sound h
      subst h3
      refine ⟨⟨r, b, (gate_binds hq hg r).1 h1, hb, rfl, ?_⟩, ?_⟩
      · rintro e rfl
        unfold production
        dsimp only
        rw [if_pos hsim]
        refine List.mem_append_right _ ?_
        simp [h2, hw, hs, Res.ground]
      · intro g v hx hv
        unfold production
        dsimp only
        rw [if_pos hsim, hx]
        exact List.mem_append_left _ hv
  · intro m contra ws p allowed s hp hw hs hps e he h1 h2 h3 h4
    unfold storeRequirement defeated
    simp only [hps, hp, hw, hs, Bool.not_false, decide_true, Bool.and_self, if_true]
    refine List.mem_append_left _ (List.mem_append_left _ (List.mem_append_right _ ?_))
    refine List.mem_map.2 ⟨e, List.mem_filter.2 ⟨he, ?_⟩, rfl⟩
    simp [h1, h2, h3, h4]

def x₂ : In := { id := 2, cfd := 1, pred := some ⟨1, [40], []⟩ }
def a₂ : Acc := { r := .weakEnabled, results := [.weak e₁], weak := [e₁] }

/-- C117 fails: the instance of a command model predicted in a simulation does not depend on the requirement the
prediction depends on; and a strong requirement predicted in two simulations withdraws nothing. -/
theorem C117_defeat_violated : ¬ C117_full ∧ ¬ C117_depends ∧ ¬ C117_withdraws ∧
    (reduce F32.exact { m₁ with isCmd := true } 100 (· == ·) x₂ .positive true bind₁ { r := .weakDisabled }
        (fun _ => a₂)).1 =
      [.predict ⟨9, true, 5000, 1/2, [40], [], [5]⟩ (1/2) 1, .inst 3 false (some ([40], [])) .primary (1/2) 1] ∧
    storeRequirement m₁ (fun _ => true) [⟨5, true, [40], 1/2⟩] ⟨8, false, 5000, 1, [40, 41], [], []⟩ true =
      [.keep .primary .simNegative true] := by
  have h1 : (reduce F32.exact { m₁ with isCmd := true } 100 (· == ·) x₂ .positive true bind₁ { r := .weakDisabled }
        (fun _ => a₂)).1 =
      [.predict ⟨9, true, 5000, 1/2, [40], [], [5]⟩ (1/2) 1, .inst 3 false (some ([40], [])) .primary (1/2) 1] := by
    decide +kernel
  have h2 : storeRequirement m₁ (fun _ => true) [⟨5, true, [40], 1/2⟩] ⟨8, false, 5000, 1, [40, 41], [], []⟩ true =
      [.keep .primary .simNegative true] := by decide +kernel
  have hD : ¬ C117_depends := by
    intro hf
    have hR : ¬ Real x₂ := (not_real_iff x₂).2 rfl
    have := (hf F32.exact { m₁ with isCmd := true } 100 (· == ·) x₂ true bind₁ { r := .weakDisabled } (fun _ => a₂)
      (by decide) (by decide) rfl hR e₁ (by
        rintro r ⟨-, h⟩
        obtain ⟨s, -, h⟩ := h hR (by simp)
        rcases h with ⟨y, hy, rfl⟩ | ⟨h, -⟩
        · simp [a₂] at hy
          rw [hy]
        · simp [a₂] at h)).2 3 false [40] [] .primary (1/2) 1
    rw [h1] at this
    have := this (by simp)
    simp at this
  have hW : ¬ C117_withdraws := by
    intro hf
    have := hf m₁ (fun _ => true) [⟨5, true, [40], 1/2⟩] ⟨8, false, 5000, 1, [40, 41], [], []⟩ true rfl (by decide)
      (by decide) _ List.mem_cons_self rfl ⟨40, by simp, by simp⟩ rfl (by decide +kernel)
    rw [h2] at this
    simp at this
  exact ⟨fun h => hD h.1, hD, hW, h1, h2⟩

theorem C117_nonvacuous : ¬ Real x₂ ∧ 0 < m₁.wr ∧ 0 < m₁.sr ∧ Quiet x₂ (fun _ => a₂) ∧
    guesses (reduce F32.exact m₁ 100 (· == ·) { x₂ with pred := some ⟨1, [40], [77]⟩ } .positive true bind₁
      { r := .weakDisabled } (fun _ => a₂)).1 = [⟨9, true, 5000, 1/2, [40], [], [77, 5]⟩] ∧
    storeRequirement m₁ (fun _ => true) [⟨5, true, [40], 1/2⟩, ⟨6, false, [40], 1/2⟩] ⟨8, false, 5000, 1, [40], [], []⟩
      true = [.keep .primary .simNegative true, .withdraw 5] :=
  ⟨(not_real_iff x₂).2 rfl, by decide, by decide, fun _ _ h => absurd (Or.inl rfl) h, by decide +kernel,
    by decide +kernel⟩

/-! ## C118 -/

/-- What holds of C118: a secondary controller shows nothing to anyone. It watches, without counting failures, what its
model predicts, for each way to bind it, unless the model has template arguments that no requirement gives. Whether its
own requirements allow it makes no difference to what it passes on. -/
theorem C118_secondary_partial (m : Mdl) (cfd : Rat) (bind : Option Res → Option Bound) (a : Acc) :
    (∀ lhs, ∀ e ∈ (reduceSecondary m cfd lhs bind a).1, lhs = .positive ∧
      ((∃ p, e = .active p ∧ (a.weak ≠ [] ∨ a.strong ≠ [])) ∨ (∃ p, m.isReq = false ∧ e = .monitor p false false) ∨
        (∃ p, m.isReq = true ∧ e = .require p true))) ∧
    ((m.hasTpl = false ∨ a.r = .weakEnabled ∨ a.r = .strongDisabledWeak) → ∀ r b, Way a.results r → bind r = some b →
      ∃ p : Made, p.rhs = b.rhs ∧ p.positive = b.positive ∧ p.before = b.before ∧ p.cfd = cfd ∧ p.sims = [] ∧
        (m.isReq = false → Eff.monitor p false false ∈ (reduceSecondary m cfd .positive bind a).1) ∧
        (m.isReq = true → Eff.require p true ∈ (reduceSecondary m cfd .positive bind a).1)) := by
  constructor
  · intro lhs e he
    unfold reduceSecondary at he
    cases lhs with
    | negative => simp at he
    | failure => simp at he
    | positive =>
      refine ⟨rfl, ?_⟩
      dsimp only at he
      split at he
      · simp at he
      · obtain ⟨b, -, h⟩ := List.mem_flatMap.1 he
        unfold silent at h
        dsimp only at h
        rcases List.mem_append.1 h with h | h
        · left
          split at h
          · rename_i hm
            refine ⟨_, List.mem_singleton.1 h, ?_⟩
            unfold matched at hm
            cases e : a.weak with
            | cons => simp
            | nil =>
              cases e' : a.strong with
              | cons => simp
              | nil => rw [e, e'] at hm; simp at hm
          · simp at h
        · split at h
          · rename_i hm
            exact Or.inr (Or.inr ⟨_, hm, List.mem_singleton.1 h⟩)
          · rename_i hm
            exact Or.inr (Or.inl ⟨_, by simpa using hm, List.mem_singleton.1 h⟩)
  · intro ht r b hw hb
    refine ⟨{ rhs := b.rhs, positive := b.positive, before := b.before, cfd := cfd }, rfl, rfl, rfl, rfl, rfl, ?_, ?_⟩
    all_goals
      intro hr
      unfold reduceSecondary
      dsimp only
      rw [if_neg (by
        rcases ht with h | h | h
        · rw [h]; simp
        · rw [h]; simp
        · rw [h]; simp)]
      refine List.mem_flatMap.2 ⟨b, List.mem_filterMap.2 ⟨r, (way_iff _ _).2 hw, hb⟩, ?_⟩
      unfold silent
      refine List.mem_append_right _ ?_
      rw [hr]
      exact List.mem_singleton_self _

/-- C118 fails: a requirement is passed on as allowed although the requirements of the model forbid it. -/
theorem C118_secondary_violated : ¬ C118_full ∧
    (reduceSecondary { m₁ with isReq := true } 1 .positive bind₁ { r := .weakDisabled }).1 =
      [.require ⟨9, true, 5000, 1, [], [], []⟩ true] := by
  have h : (reduceSecondary { m₁ with isReq := true } 1 .positive bind₁ { r := .weakDisabled }).1 =
      [.require ⟨9, true, 5000, 1, [], [], []⟩ true] := by decide +kernel
  refine ⟨fun hf => ?_, h⟩
  have := hf { m₁ with isReq := true } 1 .positive bind₁ { r := .weakDisabled } (.require ⟨9, true, 5000, 1, [], [], []⟩ true)
    (by rw [h]; exact List.mem_singleton_self _)
  rcases this with ⟨p, h⟩ | ⟨p, h, -⟩ | ⟨p, ok, -, h, h'⟩
  · simp at h
  · simp at h
  · simp at h
    rcases h'.1 h.2 with h | h <;> simp at h

theorem C118_nonvacuous : m₁.hasTpl = false ∧ Way a₁.results (some (.weak e₁)) ∧
    (reduceSecondary m₁ 1 .positive bind₁ a₁).1.length = 4 ∧
    watched (reduceSecondary m₁ 1 .positive bind₁ a₁).1 = [⟨9, true, 5000, 1, [], [], []⟩, ⟨9, true, 5000, 1, [], [], []⟩] :=
  ⟨rfl, Or.inl ⟨_, List.mem_cons_self, rfl⟩, by decide +kernel, by decide +kernel⟩

end Verif.Predict
