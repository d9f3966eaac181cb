import Verif.Predict.Spec
/-!
# The loop of forward chaining
-/
namespace Verif.Predict
open Verif.F32 (Arith)
open Verif.Requirements (Status Acc Res Entry fires)

theorem fires_iff (a : Acc) : fires a.r = true ↔ Allows a := by
  unfold fires Allows
  cases a.r <;> simp [Status.toNat]

theorem inSims_sims (x : In) : InSims x x.sims := by
  refine ⟨fun g h => ?_, fun h => ?_⟩ <;> simp [In.sims, h]
theorem inSims_eq {x : In} {l : List Nat} (h : InSims x l) : l = x.sims := by
  unfold In.sims
  cases e : x.pred with
  | none => exact h.2 e
  | some g => exact h.1 g e
theorem real_iff (x : In) : Real x ↔ x.simulated = false := by
  constructor
  · intro h
    have := inSims_eq h
    unfold In.sims at this
    unfold In.simulated
    cases e : x.pred with
    | none => rfl
    | some g => rw [e] at this; dsimp only at this ⊢; rw [← this]; rfl
  · intro h
    have : x.sims = [] := by
      unfold In.simulated at h
      unfold In.sims
      cases e : x.pred with
      | none => rfl
      | some g => rw [e] at h; dsimp only at h ⊢; simpa using h
    have h' := inSims_sims x
    rwa [this] at h'
theorem not_real_iff (x : In) : ¬ Real x ↔ x.simulated = true := by
  rw [real_iff]; simp
theorem sure (x : In) : ∃ q, Sure x q ∧ ∀ A m, confidence A m x true = some (A.mul q m.rate) := by
  cases e : x.pred with
  | none => exact ⟨x.cfd, ⟨fun g h => by simp [e] at h, fun _ => rfl⟩, fun A m => by simp [confidence, e]⟩
  | some g =>
    refine ⟨g.cfd, ⟨fun g' h => ?_, fun h => by simp [e] at h⟩, fun A m => by simp [confidence, e]⟩
    rw [e] at h; cases h; rfl
theorem sure_eq {x : In} {q q' : Rat} (h : Sure x q) (h' : Sure x q') : q = q' := by
  cases e : x.pred with
  | none => rw [h.2 e, h'.2 e]
  | some g => rw [h.1 g e, h'.1 g e]
theorem conf_true {A : Arith} {m : Mdl} {x : In} {q : Rat} (h : Sure x q) :
    confidence A m x true = some (A.mul q m.rate) := by
  obtain ⟨q', h1, h2⟩ := sure x
  rw [h2, sure_eq h h1]

theorem predicts (A : Arith) (m : Mdl) (x : In) (b : Bound) (g : Option Nat) (c : Rat) :
    Predicts A x b c (production A m x b g c) := by
  refine ⟨rfl, rfl, rfl, rfl, ?_⟩
  have := inSims_sims x
  exact this

variable {A : Arith} {m : Mdl} {now : Int} {same : Nat → Nat → Bool} {x : In} {allowed req wre : Bool}
  {bind : Option Res → Option Bound}

/-- Each effect comes from one of the results. -/
theorem loop_mem {rs : List (Option Res)} {done : List Nat} {e : Eff}
    (h : e ∈ (loop A m now same x allowed req wre bind rs done).1) :
    ∃ r ∈ rs, ∃ b d, bind r = some b ∧ e ∈ (predict A m now same x allowed req wre b (Res.ground r) d).1 := by
  induction rs generalizing done with
  | nil => simp [loop] at h
  | cons r t ih =>
    unfold loop at h
    cases hb : bind r with
    | none =>
      rw [hb] at h
      obtain ⟨r', h1, b, d, h2⟩ := ih h
      exact ⟨r', List.mem_cons_of_mem _ h1, b, d, h2⟩
    | some b =>
      rw [hb] at h
      dsimp only at h
      rcases List.mem_append.1 h with h | h
      · exact ⟨r, List.mem_cons_self, b, done, hb, h⟩
      · obtain ⟨r', h1, b, d, h2⟩ := ih h
        exact ⟨r', List.mem_cons_of_mem _ h1, b, d, h2⟩

/-- If nothing is recorded as predicted, the results are dealt with one by one. -/
theorem loop_flat (hd : ∀ b g, (predict A m now same x allowed req wre b g []).2 = []) (rs : List (Option Res)) :
    (loop A m now same x allowed req wre bind rs []).1 = rs.flatMap (fun r =>
      match bind r with | some b => (predict A m now same x allowed req wre b (Res.ground r) []).1 | none => []) := by
  induction rs with
  | nil => rfl
  | cons r t ih =>
    unfold loop
    cases hb : bind r with
    | none => simp [hb, ih]
    | some b =>
      dsimp only
      rw [hd b, ih]
      simp [hb]

/-! ## One result -/

theorem predict_done {b : Bound} {g : Option Nat} {done : List Nat} (h : done.any (same b.rhs) = true) :
    predict A m now same x allowed req wre b g done = ([], done) := by
  unfold predict; rw [if_pos h]

/-- An actual input. -/
theorem predict_actual (hx : x.pred = none) (hr : m.isReq = false) (b : Bound) (g : Option Nat) {done : List Nat}
    (hd : done.any (same b.rhs) = false) : predict A m now same x allowed req wre b g done =
      (let c := if allowed then A.mul x.cfd m.rate else 0
       let p := production A m x b g c
       (if req then [Eff.active p] else []) ++
        (if allowed = false then [.monitor p false false]
         else if b.before ≤ now then []
         else (if m.thr < c then [.predict p (A.store c) (Lifetime.goalRes m.ref m.upr now (b.before - now)),
            .inst b.inst wre none .primary 1 1, .rdx x.id g p] else []) ++
            [.monitor p true (decide (m.thr < c)), .inst b.inst wre none .primary (A.store c) 1]), done) := by
  have hs : x.simulated = false := by simp [In.simulated, hx]
  unfold predict
  simp only [hd, Bool.false_eq_true, if_false, confidence, hx, hr, hs, Bool.not_false, if_true,
    Option.isSome_none]
  cases allowed with
  | false => simp
  | true =>
    by_cases hb : b.before ≤ now
    · simp [hb]
    · simp [hb]

/-- A prediction, when chaining is allowed and it is not known yet. -/
theorem predict_real {G : Guess} {q : Rat} (hx : x.pred = some G) (hs : x.simulated = false) (hr : m.isReq = false)
    (hq : Sure x q) {b : Bound} {g : Option Nat} {done : List Nat} (h : done.any (same b.rhs) = false) :
    predict A m now same x true req wre b g done =
      (let p := production A m x b g (A.mul q m.rate)
       if now < b.before ∧ m.thr < A.mul q m.rate then
        ((if req then [Eff.active p] else []) ++ [.predict p (A.store (A.mul q m.rate))
            (Lifetime.goalRes m.ref m.upr now (b.before - now)), .inst b.inst wre (some ([], [])) .primary 1 1],
          done ++ [b.rhs])
       else (if req then [Eff.active p] else [], done)) := by
  unfold predict
  rw [if_neg (by rw [h]; simp), conf_true hq]
  dsimp only
  rw [if_neg (by rw [hr]; simp), if_pos (by rw [hs]; rfl), if_neg (by simp)]
  by_cases hb : b.before ≤ now
  · rw [if_pos hb, if_neg (show ¬ (now < b.before ∧ m.thr < A.mul q m.rate) from fun h => by omega)]
  · rw [if_neg hb, if_pos (by rw [hx]; rfl)]
    by_cases hc : m.thr < A.mul q m.rate
    · rw [if_pos hc, if_pos (show now < b.before ∧ m.thr < A.mul q m.rate from ⟨by omega, hc⟩)]
    · rw [if_neg hc, if_neg (show ¬ (now < b.before ∧ m.thr < A.mul q m.rate) from fun h => hc h.2)]

/-- A simulation. -/
theorem predict_sim {q : Rat} (hs : x.simulated = true) (hr : m.isReq = false)
    (hq : Sure x q) {b : Bound} {g : Option Nat} {done : List Nat} (h : done.any (same b.rhs) = false) :
    predict A m now same x true req wre b g done =
      (let p := production A m x b g (A.mul q m.rate)
       if m.thr < A.mul q m.rate then
        (.predict p (A.store (A.mul q m.rate)) 1 :: (if m.isCmd || m.isReuse then
            [.inst b.inst wre (some (p.sims, match x.pred with | some g => g.validities | none => []))
              .primary (A.store (A.mul q m.rate)) 1] else []),
          done ++ [b.rhs])
       else ([], done)) := by
  unfold predict
  rw [if_neg (by rw [h]; simp), conf_true hq]
  dsimp only
  rw [if_neg (by rw [hr]; simp), if_neg (by rw [hs]; simp)]
  rfl

/-- A prediction, when chaining is not allowed. -/
theorem predict_not {G : Guess} (hx : x.pred = some G) (b : Bound) (g : Option Nat) (done : List Nat) :
    predict A m now same x false req wre b g done = ([], done) := by
  unfold predict
  simp [confidence, hx]

/-- A requirement. -/
theorem predict_req (hr : m.isReq = true) (b : Bound) (g : Option Nat) {done : List Nat}
    (hd : done.any (same b.rhs) = false) : predict A m now same x allowed req wre b g done =
      (match confidence A m x allowed with
        | none => []
        | some c => [.rdx x.id none (production A m x b g c), .require (production A m x b g c) allowed], done) := by
  unfold predict
  rw [if_neg (by rw [hd]; simp)]
  cases h : confidence A m x allowed with
  | none => simp
  | some c => simp [hr]

/-- Predicted inputs, real or simulated, in one form. -/
theorem predict_guess {G : Guess} {q : Rat} (hx : x.pred = some G) (hr : m.isReq = false) (hq : Sure x q)
    {b : Bound} {g : Option Nat} {done : List Nat} (h : done.any (same b.rhs) = false) :
    (Worth m now x b (A.mul q m.rate) → (predict A m now same x true req wre b g done).2 = done ++ [b.rhs] ∧
      guesses (predict A m now same x true req wre b g done).1 = [production A m x b g (A.mul q m.rate)]) ∧
    (¬ Worth m now x b (A.mul q m.rate) → (predict A m now same x true req wre b g done).2 = done ∧
      guesses (predict A m now same x true req wre b g done).1 = []) := by
  cases hs : x.simulated with
  | false =>
    have hR := (real_iff x).2 hs
    rw [predict_real hx hs hr hq h]
    dsimp only
    constructor
    · intro w
      rw [if_pos ⟨w.2 hR, w.1⟩]
      refine ⟨rfl, ?_⟩
      cases req <;> simp [guesses]
    · intro w
      rw [if_neg (fun h => w ⟨h.2, fun _ => h.1⟩)]
      refine ⟨rfl, ?_⟩
      cases req <;> simp [guesses]
  | true =>
    have hR := (not_real_iff x).2 hs
    rw [predict_sim hs hr hq h]
    dsimp only
    constructor
    · intro w
      rw [if_pos w.1]
      refine ⟨rfl, ?_⟩
      cases m.isCmd || m.isReuse <;> simp [guesses]
    · intro w
      rw [if_neg (fun h => w ⟨h, fun h => absurd h hR⟩)]
      exact ⟨rfl, by simp [guesses]⟩

theorem guesses_append (l₁ l₂ : List Eff) : guesses (l₁ ++ l₂) = guesses l₁ ++ guesses l₂ := by
  simp [guesses, List.filterMap_append]
theorem raters_append (l₁ l₂ : List Eff) : raters (l₁ ++ l₂) = raters l₁ ++ raters l₂ := by
  simp [raters, List.filterMap_append]
theorem watched_append (l₁ l₂ : List Eff) : watched (l₁ ++ l₂) = watched l₁ ++ watched l₂ := by
  simp [watched, List.filterMap_append]

theorem mem_guesses {es : List Eff} {p : Made} : p ∈ guesses es ↔ ∃ sln res, Eff.predict p sln res ∈ es := by
  unfold guesses
  rw [List.mem_filterMap]
  constructor
  · rintro ⟨e, h, h2⟩
    cases e <;> simp at h2
    subst h2
    exact ⟨_, _, h⟩
  · rintro ⟨s, r, h⟩
    exact ⟨_, h, rfl⟩
theorem mem_watched {es : List Eff} {p : Made} : p ∈ watched es ↔ ∃ d r, Eff.monitor p d r ∈ es := by
  unfold watched
  rw [List.mem_filterMap]
  constructor
  · rintro ⟨e, h, h2⟩
    cases e <;> simp at h2
    subst h2
    exact ⟨_, _, h⟩
  · rintro ⟨s, r, h⟩
    exact ⟨_, h, rfl⟩

/-- Predictions made from predictions are distinct. -/
theorem loop_once {G : Guess} (hx : x.pred = some G) (hr : m.isReq = false) (rs : List (Option Res)) :
    ∀ done, (guesses (loop A m now same x true req wre bind rs done).1).Pairwise
        (fun p q => same q.rhs p.rhs = false) ∧
      ∀ p ∈ guesses (loop A m now same x true req wre bind rs done).1, ∀ d ∈ done, same p.rhs d = false := by
  obtain ⟨q, hq, -⟩ := sure x
  induction rs with
  | nil => intro done; simp [loop, guesses]
  | cons r t ih =>
    intro done
    unfold loop
    cases hb : bind r with
    | none => exact ih done
    | some b =>
      dsimp only
      cases hd : done.any (same b.rhs) with
      | true => rw [predict_done hd]; exact ih done
      | false =>
        obtain ⟨w1, w2⟩ := predict_guess (A := A) (now := now) (req := req) (wre := wre) (g := Res.ground r) hx hr hq hd
        rw [guesses_append]
        by_cases w : Worth m now x b (A.mul q m.rate)
        · obtain ⟨e1, e2⟩ := w1 w
          rw [e1, e2]
          obtain ⟨i1, i2⟩ := ih (done ++ [b.rhs])
          refine ⟨?_, ?_⟩
          · rw [List.singleton_append, List.pairwise_cons]
            exact ⟨fun p hp => i2 p hp b.rhs (by simp), i1⟩
          · intro p hp d hd'
            rcases List.mem_append.1 hp with hp | hp
            · rw [List.mem_singleton.1 hp]
              have := List.any_eq_false.1 hd d hd'
              show same b.rhs d = false
              simpa using this
            · exact i2 p hp d (List.mem_append_left _ hd')
        · obtain ⟨e1, e2⟩ := w2 w
          rw [e1, e2]
          exact ih done

/-- What is worth predicting is predicted, or was. -/
theorem loop_complete {G : Guess} {q : Rat} (hx : x.pred = some G) (hr : m.isReq = false) (hq : Sure x q)
    (rs : List (Option Res)) : ∀ done, ∀ r ∈ rs, ∀ b, bind r = some b → Worth m now x b (A.mul q m.rate) →
      (∃ d ∈ done, same b.rhs d = true) ∨
      ∃ p ∈ guesses (loop A m now same x true req wre bind rs done).1, p.rhs = b.rhs ∨ same b.rhs p.rhs = true := by
  induction rs with
  | nil => intro done r hr; simp at hr
  | cons r₀ t ih =>
    intro done r hr b hb w
    unfold loop
    cases hb₀ : bind r₀ with
    | none =>
      rcases List.mem_cons.1 hr with rfl | hr'
      · rw [hb₀] at hb; simp at hb
      · exact ih done r hr' b hb w
    | some b₀ =>
      dsimp only
      cases hd : done.any (same b₀.rhs) with
      | true =>
        rw [predict_done hd]
        rcases List.mem_cons.1 hr with rfl | hr'
        · rw [hb₀] at hb; cases hb
          left
          obtain ⟨d, h1, h2⟩ := List.any_eq_true.1 hd
          exact ⟨d, h1, h2⟩
        · rw [List.nil_append]; exact ih done r hr' b hb w
      | false =>
        obtain ⟨w1, w2⟩ := predict_guess (A := A) (now := now) (req := req) (wre := wre) (g := Res.ground r₀) hx
          (by assumption) hq hd
        rw [guesses_append]
        by_cases w₀ : Worth m now x b₀ (A.mul q m.rate)
        · obtain ⟨e1, e2⟩ := w1 w₀
          rw [e1, e2]
          rcases List.mem_cons.1 hr with rfl | hr'
          · rw [hb₀] at hb; cases hb
            exact Or.inr ⟨_, List.mem_append_left _ (List.mem_singleton_self _), Or.inl rfl⟩
          · rcases ih (done ++ [b₀.rhs]) r hr' b hb w with ⟨d, h1, h2⟩ | ⟨p, h1, h2⟩
            · rcases List.mem_append.1 h1 with h1 | h1
              · exact Or.inl ⟨d, h1, h2⟩
              · rw [List.mem_singleton.1 h1] at h2
                exact Or.inr ⟨_, List.mem_append_left _ (List.mem_singleton_self _), Or.inr h2⟩
            · exact Or.inr ⟨p, List.mem_append_right _ h1, h2⟩
        · obtain ⟨e1, e2⟩ := w2 w₀
          rw [e1, e2]
          rcases List.mem_cons.1 hr with rfl | hr'
          · rw [hb₀] at hb; cases hb
            exact absurd w w₀
          · exact ih done r hr' b hb w

/-! ## The gate -/

theorem way_iff (rs : List Res) (r : Option Res) : r ∈ cands rs ↔ Way rs r := by
  unfold cands Way
  cases rs with
  | nil => simp
  | cons y t => simp [eq_comm]

/-- Simulations that forbid chaining give no results. -/
def Quiet (x : In) (ans : Nat → Acc) : Prop := ∀ s ∈ x.sims, ¬ Allows (ans s) → (ans s).results = []

theorem simCheck_spec (ans : Nat → Acc) (l : List Nat) :
    ((simCheck ans l).1 = true ↔ ∃ s ∈ l, Allows (ans s)) ∧
    ((∀ s ∈ l, ¬ Allows (ans s) → (ans s).results = []) → (simCheck ans l).1 = true →
      ∃ l₁ s l₂, l = l₁ ++ s :: l₂ ∧ Allows (ans s) ∧ (∀ y ∈ l₁, ¬ Allows (ans y)) ∧
        (simCheck ans l).2 = (ans s).results) := by
  induction l with
  | nil => simp [simCheck]
  | cons s t ih =>
    unfold simCheck
    by_cases h : fires (ans s).r = true
    · rw [if_pos h]
      have := (fires_iff _).1 h
      exact ⟨⟨fun _ => ⟨s, List.mem_cons_self, this⟩, fun _ => rfl⟩, fun _ _ => ⟨[], s, t, rfl, this, by simp, rfl⟩⟩
    · rw [if_neg h]
      have hn : ¬ Allows (ans s) := fun h' => h ((fires_iff _).2 h')
      refine ⟨?_, ?_⟩
      · dsimp only
        rw [ih.1]
        simp [hn]
      · intro hq ht
        obtain ⟨l₁, s', l₂, e, h1, h2, h3⟩ := ih.2 (fun y hy => hq y (List.mem_cons_of_mem _ hy)) ht
        refine ⟨s :: l₁, s', l₂, by rw [e]; rfl, h1, ?_, ?_⟩
        · intro y hy
          rcases List.mem_cons.1 hy with rfl | hy
          · exact hn
          · exact h2 y hy
        · dsimp only
          rw [h3, hq s List.mem_cons_self hn, List.nil_append]

theorem firstAllowed_unique {ans : Nat → Acc} {s s' : Nat} (h : FirstAllowed x ans s) (h' : FirstAllowed x ans s') :
    s = s' := by
  obtain ⟨l₁, l₂, e, h1, h2⟩ := h
  obtain ⟨k₁, k₂, e', h1', h2'⟩ := h'
  have hl := (inSims_eq e).trans (inSims_eq e').symm
  clear e e'
  induction l₁ generalizing k₁ with
  | nil =>
    cases k₁ with
    | nil => simpa using hl.symm.symm |> fun h => (List.cons.inj h).1
    | cons y k =>
      have := (List.cons.inj hl).1
      exact absurd h1 (this ▸ h2' y List.mem_cons_self)
  | cons z l ih =>
    cases k₁ with
    | nil =>
      have := (List.cons.inj hl).1
      exact absurd h1' (this ▸ h2 z List.mem_cons_self)
    | cons y k =>
      exact ih (fun y hy => h2 y (List.mem_cons_of_mem _ hy)) k (fun y hy => h2' y (List.mem_cons_of_mem _ hy))
        (List.cons.inj hl).2

/-- What the gate lets through. -/
theorem gate_allowed {a : Acc} {ans : Nat → Acc} :
    (∃ w rs, gate m x a ans = some (true, w, rs)) ↔ Allowed x a ans := by
  unfold Allowed
  have hsim : ∀ w, (∃ w' rs, simGate x ans w = some (true, w', rs)) ↔ ∃ l s, InSims x l ∧ s ∈ l ∧ Allows (ans s) := by
    intro w
    unfold simGate
    constructor
    · rintro ⟨w', rs, h⟩
      split at h
      · rename_i hc
        obtain ⟨s, h1, h2⟩ := (simCheck_spec ans x.sims).1.1 hc
        exact ⟨x.sims, s, inSims_sims x, h1, h2⟩
      · simp at h
    · rintro ⟨l, s, h1, h2, h3⟩
      rw [inSims_eq h1] at h2
      rw [if_pos ((simCheck_spec ans x.sims).1.2 ⟨s, h2, h3⟩)]
      exact ⟨_, _, rfl⟩
  cases hs : x.simulated with
  | false =>
    have hR := (real_iff x).2 hs
    simp only [hR, not_true, false_implies, and_true, true_implies, gate, hs]
    unfold Allows
    cases a.r <;> simp
  | true =>
    have hR := (not_real_iff x).2 hs
    simp only [hR, not_false_iff, true_implies, gate, hs, if_true, false_implies, true_and]
    cases a.r <;> simp [hsim]

/-- With what results. -/
theorem gate_binds {a : Acc} {ans : Nat → Acc} (hq : a.r ≠ .weakEnabled → Quiet x ans) {al w : Bool} {rs : List Res}
    (h : gate m x a ans = some (al, w, rs)) (r : Option Res) : r ∈ cands rs ↔ Binds x a ans r := by
  rw [way_iff]
  unfold Binds
  have hsim : ∀ {w0}, a.r ≠ .weakEnabled → x.simulated = true → simGate x ans w0 = some (al, w, rs) →
      ((Real x ∨ a.r = .weakEnabled → Way a.results r) ∧
        (¬ Real x → a.r ≠ .weakEnabled → ∃ s, FirstAllowed x ans s ∧ Way (ans s).results r) ↔ Way rs r) := by
    intro w0 hw hs h
    have hR := (not_real_iff x).2 hs
    unfold simGate at h
    by_cases hc : (simCheck ans x.sims).1 = true
    · rw [if_pos hc] at h
      obtain ⟨l₁, s, l₂, e, h1, h2, h3⟩ := (simCheck_spec ans x.sims).2 (hq hw) hc
      simp only [Option.some.injEq, Prod.mk.injEq] at h
      rw [← h.2.2, h3]
      have hf : FirstAllowed x ans s := ⟨l₁, l₂, e ▸ inSims_sims x, h1, h2⟩
      constructor
      · rintro ⟨-, h⟩
        obtain ⟨s', h4, h5⟩ := h hR hw
        rwa [firstAllowed_unique hf h4]
      · intro h
        exact ⟨fun h' => by rcases h' with h' | h'; exacts [absurd h' hR, absurd h' hw], fun _ _ => ⟨s, hf, h⟩⟩
    · rw [if_neg hc] at h
      simp at h
  cases hs : x.simulated with
  | false =>
    have hR := (real_iff x).2 hs
    simp only [hR, true_or, true_implies, not_true, false_implies, and_true]
    unfold gate at h
    simp only [hs] at h
    cases hr : a.r <;> rw [hr] at h <;> cases ht : m.hasTpl <;> simp [ht] at h <;> simp [h]
  | true =>
    have hR := (not_real_iff x).2 hs
    by_cases hw : a.r = .weakEnabled
    · simp only [hw, or_true, true_implies, ne_eq, not_true, false_implies, implies_true, and_true]
      unfold gate at h
      simp only [hw] at h
      simp at h
      rw [h.2.2]
    · refine (Iff.symm ?_)
      unfold gate at h
      simp only [hs, if_true] at h
      cases hr : a.r <;> rw [hr] at h <;> dsimp only at h
      · have := hsim hw hs h; rwa [hr] at this
      · have := hsim hw hs h; rwa [hr] at this
      · have := hsim hw hs h; rwa [hr] at this
      · exact absurd hr hw
      · have := hsim hw hs h; rwa [hr] at this

end Verif.Predict
