import Verif.Subgoal.Spec
/-!
# C155: a goal for a composite state becomes goals for what is missing of it
-/
namespace Verif.Subgoal
open Verif.F32 (Arith)
open Verif.Abduce (Sim Mode)

/-- The members of the overlays that are used, valid or not. -/
def flat : List Ov → List Member
  | [] => []
  | o :: os => if o.simulated then flat os else match o.bound with | none => flat os | some ms => ms ++ flat os

theorem loop_append (A : Arith) (same : Nat → Nat → Bool) (K : Known) (now : Int) (g : Goal) (s : Sim) (opposite : Bool) :
    ∀ (ms ns : List Member) (reg : Option (List Target)), loop A same K now g s opposite reg (ms ++ ns) =
      ((loop A same K now g s opposite reg ms).1 ++ (loop A same K now g s opposite (loop A same K now g s opposite reg ms).2 ns).1,
        (loop A same K now g s opposite (loop A same K now g s opposite reg ms).2 ns).2)
  | [], _, _ => by simp [loop]
  | m :: ms, ns, reg => by simp only [List.cons_append, loop, loop_append A same K now g s opposite ms ns, List.append_assoc]

theorem abduceSim_eq (A : Arith) (same : Nat → Nat → Bool) (K : Known) (now : Int) {g : Goal} {s : Sim} (hs : g.sim = some s) :
    ∀ (os : List Ov) (reg : Option (List Target)), abduceSim A same K now g reg os =
      some (loop A same K now g (subSim A now g.id s (!g.positive)) (!g.positive) reg (flat os))
  | [], reg => by simp [abduceSim, flat, loop]
  | o :: os, reg => by
    rw [abduceSim, flat]
    split
    · exact abduceSim_eq A same K now hs os reg
    · cases o.bound with
      | none => exact abduceSim_eq A same K now hs os reg
      | some ms => simp only [abduce, hs, abduceSim_eq A same K now hs os, loop_append]

/-- The code's test for a member that is missing. -/
def lacks (K : Known) (opposite : Bool) (m : Member) : Bool :=
  !m.isAxiom && (K.seen (want opposite m)).isNone && (K.predicted (want opposite m) != some true)

theorem member_eq (A : Arith) (same : Nat → Nat → Bool) (K : Known) (now : Int) (g : Goal) (s : Sim) (opposite : Bool) (reg : List Target) (m : Member) :
    member A same K now g s opposite (some reg) m =
      if lacks K opposite m && !(reg.any (like same (want opposite m))) then
        (.goal { want opposite m with cfd := A.store g.cfd } g.actor s now g.cfd 1 ::
          (if s.mode = .root then [.rdx g.id { want opposite m with cfd := A.store g.cfd }] else []), some (reg ++ [want opposite m]))
      else ([], some reg) := by
  simp only [member, lacks]
  cases m.isAxiom with
  | true => simp
  | false =>
    cases K.seen (want opposite m) with
    | some b => simp
    | none =>
      have key : inject A same now g s (some reg) (want opposite m) =
          if !(reg.any (like same (want opposite m))) then
            (.goal { want opposite m with cfd := A.store g.cfd } g.actor s now g.cfd 1 ::
              (if s.mode = .root then [.rdx g.id { want opposite m with cfd := A.store g.cfd }] else []), some (reg ++ [want opposite m]))
          else ([], some reg) := by
        simp only [inject, register]
        cases reg.any (like same (want opposite m)) <;> simp
      cases h : K.predicted (want opposite m) with
      | none => simp [key]
      | some b => cases b <;> simp [key]

/-- What the loop makes. -/
structure Ran (A : Arith) (same : Nat → Nat → Bool) (K : Known) (now : Int) (g : Goal) (s : Sim) (opposite : Bool) (reg : List Target)
    (ms : List Member) (es : List Eff) (ts : List Target) : Prop where
  eff : es = ts.flatMap fun t => .goal { t with cfd := A.store g.cfd } g.actor s now g.cfd 1 ::
    (if s.mode = .root then [.rdx g.id { t with cfd := A.store g.cfd }] else [])
  from_ : ∀ t ∈ ts, ∃ m ∈ ms, lacks K opposite m = true ∧ t = want opposite m
  each : ∀ m ∈ ms, lacks K opposite m = true → want opposite m ∈ ts ∨ ∃ u ∈ reg ++ ts, like same (want opposite m) u = true
  once : ts.Pairwise fun t u => like same u t = false
  fresh : ∀ t ∈ ts, ∀ u ∈ reg, like same t u = false

theorem loop_ran (A : Arith) (same : Nat → Nat → Bool) (K : Known) (now : Int) (g : Goal) (s : Sim) (opposite : Bool) :
    ∀ (ms : List Member) (reg : List Target), ∃ es ts, loop A same K now g s opposite (some reg) ms = (es, some (reg ++ ts)) ∧
      Ran A same K now g s opposite reg ms es ts
  | [], reg => ⟨[], [], by simp [loop], ⟨by simp, by simp, by simp, by simp, by simp⟩⟩
  | m :: ms, reg => by
    rw [loop, member_eq]
    by_cases h : (lacks K opposite m && !(reg.any (like same (want opposite m)))) = true
    · rw [if_pos h]
      simp only [Bool.and_eq_true, Bool.not_eq_true', List.any_eq_false] at h
      obtain ⟨h1, h2⟩ := h
      obtain ⟨es, ts, e, r⟩ := loop_ran A same K now g s opposite ms (reg ++ [want opposite m])
      refine ⟨_, want opposite m :: ts, by simp only [e, List.append_assoc, List.singleton_append]; rfl, ⟨?_, ?_, ?_, ?_, ?_⟩⟩
      · simp only [List.flatMap_cons, r.eff]
      · intro t ht
        rcases List.mem_cons.mp ht with rfl | ht
        · exact ⟨m, by simp, h1, rfl⟩
        · obtain ⟨m', a, b⟩ := r.from_ t ht
          exact ⟨m', List.mem_cons_of_mem _ a, b⟩
      · intro m' hm' hl
        rcases List.mem_cons.mp hm' with rfl | hm'
        · exact .inl (by simp)
        · rcases r.each m' hm' hl with a | ⟨u, a, b⟩
          · exact .inl (List.mem_cons_of_mem _ a)
          · exact .inr ⟨u, by simpa [List.append_assoc] using a, b⟩
      · refine List.pairwise_cons.mpr ⟨fun u hu => r.fresh u hu _ (by simp), r.once⟩
      · intro t ht u hu
        rcases List.mem_cons.mp ht with rfl | ht
        · simpa using h2 u hu
        · exact r.fresh t ht u (by simp [hu])
    · rw [if_neg h]
      obtain ⟨es, ts, e, r⟩ := loop_ran A same K now g s opposite ms reg
      refine ⟨es, ts, by simp only [e, List.nil_append], ⟨r.eff, ?_, ?_, r.once, r.fresh⟩⟩
      · intro t ht
        obtain ⟨m', a, b⟩ := r.from_ t ht
        exact ⟨m', List.mem_cons_of_mem _ a, b⟩
      · intro m' hm' hl
        rcases List.mem_cons.mp hm' with rfl | hm'
        · simp only [hl, Bool.true_and, Bool.not_eq_true', Bool.not_eq_false] at h
          obtain ⟨u, a, b⟩ := List.any_eq_true.mp h
          exact .inr ⟨u, List.mem_append_left _ a, b⟩
        · exact r.each m' hm' hl

/-- The members that the program looks at. -/
def used (g : Goal) (own : List Member) (os : List Ov) : List Member := if g.simulated then flat os else own

theorem mem_flat {m : Member} : ∀ {os : List Ov}, m ∈ flat os ↔ ∃ o ∈ os, o.simulated = false ∧ ∃ ms, o.bound = some ms ∧ m ∈ ms
  | [] => by simp [flat]
  | o :: os => by
    rw [flat]
    cases h : o.simulated with
    | true => simp [mem_flat (os := os), h]
    | false => cases hb : o.bound <;> simp [mem_flat (os := os), h, hb]

theorem ok_iff (a : Asked) : (a.self && !a.drive && a.mine && a.requirements == 0 && a.guards) = true ↔ a.ok := by
  simp [Asked.ok, and_assoc]

/-- The hypotheses of the partial theorems: the goal has a simulation; overlays that are used can still match; where
predictions are known, the patterns of the state have the confidence of the goal; and what is taken for the same thing
is so at the same time. -/
structure Fair (same : Nat → Nat → Bool) (K : Known) (g : Goal) (reg : List Target) (own : List Member) (os : List Ov) (s : Sim) : Prop where
  refl : ∀ n, same n n = true
  sim : g.sim = some s
  live : ∀ o ∈ os, o.simulated = false → o.bound ≠ none → o.live = true
  cfd : ∀ m ∈ used g own os, m.t.cfd = g.cfd ∨ K.foreseen (want (!g.positive) m) = []
  times : ∀ m ∈ used g own os, ∀ u, (u ∈ reg ∨ ∃ m' ∈ used g own os, u = want (!g.positive) m') →
    like same (want (!g.positive) m) u = true → (want (!g.positive) m).after = u.after ∧ (want (!g.positive) m).before = u.before

theorem missing_iff {K : Known} {g : Goal} {m : Member} (h : m.t.cfd = g.cfd ∨ K.foreseen (want (!g.positive) m) = []) :
    lacks K (!g.positive) m = true ↔ Missing K g m := by
  have hc : (want (!g.positive) m).cfd = m.t.cfd := rfl
  have key : K.predicted (want (!g.positive) m) = ((K.foreseen (want (!g.positive) m)).find? (fun e => decide (g.cfd < e.2))).map (·.1) := by
    rcases h with h | h
    · simp only [Known.predicted, hc, h]
    · simp only [Known.predicted, h]; rfl
  simp only [lacks, Missing, key, Bool.and_eq_true, Bool.not_eq_true', Option.isNone_iff_eq_none, bne_iff_ne, ne_eq, Option.map_eq_some_iff, and_assoc]

theorem like_iff {same : Nat → Nat → Bool} {t u : Target} : like same t u = true ↔ t.positive = u.positive ∧ same t.n u.n = true := by
  simp [like]

theorem targets_eff {A : Arith} {g : Goal} {s : Sim} {now : Int} (ts : List Target) :
    targets (ts.flatMap fun t => .goal { t with cfd := A.store g.cfd } g.actor s now g.cfd 1 ::
      (if s.mode = .root then [.rdx g.id { t with cfd := A.store g.cfd }] else [])) = ts.map fun t => { t with cfd := A.store g.cfd } := by
  induction ts with
  | nil => rfl
  | cons t ts ih =>
    simp only [List.flatMap_cons, targets, List.cons_append, List.filterMap_cons, List.map_cons, List.filterMap_append] at ih ⊢
    rw [ih]
    by_cases h : s.mode = .root <;> simp [h]

theorem below_subSim (A : Arith) (now : Int) (g : Goal) (s : Sim) : Below now g s (subSim A now g.id s (!g.positive)) := by
  by_cases h : s.mode = .root
  · constructor <;> simp [subSim, h]
    cases g.positive <;> simp
  · constructor <;> simp [subSim, h]

theorem subSim_mode (A : Arith) (now : Int) (g : Goal) (s : Sim) : (subSim A now g.id s (!g.positive)).mode ≠ .root := by
  by_cases h : s.mode = .root
  · simp only [subSim, h, if_true]; cases g.positive <;> simp
  · simpa only [subSim, if_neg h] using h

/-- C155, which sub-goals are made: without the last three parts. -/
theorem C155_core_partial (A : Arith) {same : Nat → Nat → Bool} {K : Known} (now : Int) (a : Asked) {g : Goal} {reg : List Target}
    {own : List Member} {os : List Ov} {s : Sim} (hf : Fair same K g reg own os s) :
    ∃ es reg', reduceGoal A same K now a g (some reg) own os = some (es, some reg') ∧ C155Core A same K now a g reg own os es := by
  by_cases ha : a.ok
  · obtain ⟨es, ts, e, r⟩ := loop_ran A same K now g (subSim A now g.id s (!g.positive)) (!g.positive) (used g own os) reg
    have hr : reduceGoal A same K now a g (some reg) own os = some (es, some (reg ++ ts)) := by
      rw [reduceGoal, if_pos ((ok_iff a).mpr ha)]
      simp only [used] at e
      by_cases hg : g.simulated = true
      · simp only [hg, if_true] at e ⊢
        rw [abduceSim_eq A same K now hf.sim, e]
      · simp only [hg] at e ⊢
        simp only [abduce, hf.sim]
        exact congrArg some e
    have hcounts : ∀ {m}, m ∈ used g own os → ∃ ms, Counts g own os ms ∧ m ∈ ms := fun {m} hm => by
      by_cases hg : g.simulated = true
      · simp only [used, hg, if_true] at hm
        obtain ⟨o, o1, o2, ms, o3, o4⟩ := mem_flat.mp hm
        exact ⟨ms, by simp only [Counts, hg, if_true]; exact ⟨o, o1, o2, hf.live o o1 o2 (by simp [o3]), o3⟩, o4⟩
      · simp only [used, hg] at hm
        exact ⟨own, by simp [Counts, hg], hm⟩
    have hused : ∀ {ms m}, Counts g own os ms → m ∈ ms → m ∈ used g own os := fun {ms m} hc hm => by
      by_cases hg : g.simulated = true
      · simp only [Counts, hg, if_true] at hc
        obtain ⟨o, o1, o2, _, o3⟩ := hc
        simp only [used, hg, if_true]
        exact mem_flat.mpr ⟨o, o1, o2, ms, o3, hm⟩
      · simp only [Counts, hg] at hc
        simp only [used, hg]
        exact (show ms = own from hc) ▸ hm
    have ht : targets es = ts.map fun t => { t with cfd := A.store g.cfd } := by rw [r.eff, targets_eff]
    refine ⟨es, _, hr, ⟨fun h => absurd ha h, fun _ ms hc _ m hm hmis => ?_, fun t actor s' ijt sal res hmem => ?_, ?_, ?_⟩⟩
    · have hu := hused hc hm
      have put : ∀ u ∈ ts, ({ u with cfd := A.store g.cfd } : Target) ∈ targets es := fun u h => by rw [ht]; exact List.mem_map.mpr ⟨u, h, rfl⟩
      rcases r.each m hu ((missing_iff (hf.cfd m hu)).mpr hmis) with h | ⟨u, h1, h2⟩
      · exact .inr ⟨_, put _ h, rfl, hf.refl _, rfl, rfl⟩
      · have hl := like_iff.mp h2
        rcases List.mem_append.mp h1 with h1 | h1
        · have := hf.times m hu u (.inl h1) h2
          exact .inl ⟨u, h1, hl.1, hl.2, this⟩
        · obtain ⟨m', a1, _, a3⟩ := r.from_ u h1
          have := hf.times m hu u (.inr ⟨m', a1, a3⟩) h2
          exact .inr ⟨_, put _ h1, hl.1, hl.2, this⟩
    · rw [r.eff] at hmem
      obtain ⟨u, h1, h2⟩ := List.mem_flatMap.mp hmem
      rcases List.mem_cons.mp h2 with h2 | h2
      · injection h2 with e1 e2 e3 e4 e5 e6
        obtain ⟨m, a1, a2, a3⟩ := r.from_ u h1
        obtain ⟨ms, b1, b2⟩ := hcounts a1
        refine ⟨⟨ms, b1, m, b2, (missing_iff (hf.cfd m a1)).mp a2, by rw [e1, a3]⟩, e2, e4, e5, fun s0 hs0 => ?_⟩
        rw [hf.sim] at hs0
        cases hs0
        rw [e3]
        exact below_subSim A now g s
      · by_cases hm : (subSim A now g.id s (!g.positive)).mode = .root <;> simp [hm] at h2
    · rw [ht, List.pairwise_map]
      refine r.once.imp fun {t u} h hs => ?_
      have hl : like same u t = true := like_iff.mpr ⟨hs.1, hs.2.1⟩
      rw [hl] at h
      cases h
    · rw [ht]
      intro t h1 u h2 hs
      obtain ⟨v, h3, rfl⟩ := List.mem_map.mp h1
      have := r.fresh v h3 u h2
      have hl : like same v u = true := like_iff.mpr ⟨hs.1, hs.2.1⟩
      rw [hl] at this
      cases this
  · refine ⟨[], reg, ?_, ⟨fun _ => rfl, fun h => absurd h ha, (fun _ _ _ _ _ _ h => by cases h), by simp [targets], by simp [targets]⟩⟩
    rw [reduceGoal, if_neg (fun h => ha ((ok_iff a).mp h))]

/-- C155 for goals that are simulated: all of it. -/
theorem C155_simulated_partial (A : Arith) {same : Nat → Nat → Bool} {K : Known} (now : Int) (a : Asked) {g : Goal} {reg : List Target}
    {own : List Member} {os : List Ov} {s : Sim} (hf : Fair same K g reg own os s) (hs : s.thz ≠ 0) :
    ∃ es reg', reduceGoal A same K now a g (some reg) own os = some (es, some reg') ∧ C155At A same K now a g reg own os es := by
  obtain ⟨es, reg', h1, h2⟩ := C155_core_partial A now a hf
  have na : ¬ Actual g := fun h => hs (h s hf.sim).2
  have hsim : g.simulated = true := by simp [Goal.simulated, hf.sim, hs]
  exact ⟨es, reg', h1, ⟨h2, fun h => absurd h na, fun h => absurd h na, fun _ _ _ _ h => by rw [hsim] at h; cases h⟩⟩

/-- C155 for goals that are acted upon: what is made of them never is, and is never reported. -/
theorem C155_actual_never {A : Arith} {same : Nat → Nat → Bool} {K : Known} {now : Int} {a : Asked} {g : Goal} {reg : List Target}
    {own : List Member} {os : List Ov} {s : Sim} (hf : Fair same K g reg own os s) {es : List Eff} {reg' : Option (List Target)}
    (h : reduceGoal A same K now a g (some reg) own os = some (es, reg')) :
    (∀ t actor s' ijt sal res, .goal t actor s' ijt sal res ∈ es → s'.mode ≠ .root) ∧ ∀ sup t, .rdx sup t ∉ es := by
  by_cases ha : a.ok
  · obtain ⟨es', ts, e, r⟩ := loop_ran A same K now g (subSim A now g.id s (!g.positive)) (!g.positive) (used g own os) reg
    have hr : reduceGoal A same K now a g (some reg) own os = some (es', some (reg ++ ts)) := by
      rw [reduceGoal, if_pos ((ok_iff a).mpr ha)]
      simp only [used] at e
      by_cases hg : g.simulated = true
      · simp only [hg, if_true] at e ⊢
        rw [abduceSim_eq A same K now hf.sim, e]
      · simp only [hg] at e ⊢
        simp only [abduce, hf.sim]
        exact congrArg some e
    rw [hr] at h
    cases h
    have hm := subSim_mode A now g s
    have he := r.eff
    simp only [if_neg hm] at he
    refine ⟨fun t actor s' ijt sal res hmem => ?_, fun sup t hmem => ?_⟩
    · rw [he] at hmem
      obtain ⟨u, _, h2⟩ := List.mem_flatMap.mp hmem
      simp only [List.mem_singleton] at h2
      injection h2 with _ _ e3
      rw [e3]; exact hm
    · rw [he] at hmem
      obtain ⟨u, _, h2⟩ := List.mem_flatMap.mp hmem
      simp at h2
  · rw [reduceGoal, if_neg (fun h => ha ((ok_iff a).mp h))] at h
    cases h
    exact ⟨(fun _ _ _ _ _ _ h => by cases h), (fun _ _ h => by cases h)⟩

/-! ## Where it fails -/

def blank : Known := ⟨fun _ => none, fun _ => []⟩
/-- Two members, both wanted from 0 to 100 with confidence 1. -/
def two : List Member := [⟨⟨1, true, 0, 100, 1⟩, false⟩, ⟨⟨2, true, 0, 100, 1⟩, false⟩]
/-- The simulation of a goal that is acted upon. -/
def plain : Sim := { mode := .root, thz := 0, sup := 7, root := 9 }
def eq (m n : Nat) : Bool := m == n

/-- C155 fails: goals that are acted upon become simulated ones; a goal without simulation is a null pointer followed;
of a state not wanted every member is fought although one does not hold; predictions do not count for patterns of
confidence 1; overlays that have expired are used; the same thing at another time is left out. -/
theorem C155_subgoals_violated : ¬ C155_full ∧
    (∀ now, ∃ t s', reduceGoal F32.exact eq blank now {} ⟨5, true, 1, some plain, 0⟩ (some []) two [] =
      some ([.goal t 0 s' now 1 1, .goal { t with n := 2 } 0 s' now 1 1], some (two.map (·.t))) ∧ s'.mode = .optional) ∧
    (∀ now, reduceGoal F32.exact eq blank now {} ⟨5, true, 1, none, 0⟩ (some []) two [] = none) ∧
    (∀ now, (reduceGoal F32.exact eq ⟨fun t => if t.n = 1 ∧ t.positive = false then some true else none, fun _ => []⟩ now {} ⟨5, false, 1, some plain, 0⟩ (some []) two []).map
      (fun r => (targets r.1).map fun t => (t.n, t.positive)) = some [(2, false)]) ∧
    (∀ now, (reduceGoal F32.exact eq ⟨fun _ => none, fun t => if t.n = 1 then [(true, 1)] else []⟩ now {} ⟨5, true, 1 / 2, some plain, 0⟩ (some []) two []).map
      (fun r => (targets r.1).map fun t => t.n) = some [1, 2]) ∧
    (∀ now, (reduceGoal F32.exact eq blank now {} ⟨5, true, 1, some { plain with thz := 10 }, 0⟩ (some []) two [{ live := false, bound := some two }]).map
      (fun r => (targets r.1).map fun t => t.n) = some [1, 2]) ∧
    (∀ now, (reduceGoal F32.exact eq blank now {} ⟨5, true, 1, some plain, 0⟩ (some []) [⟨⟨1, true, 0, 100, 1⟩, false⟩, ⟨⟨1, true, 100, 200, 1⟩, false⟩] []).map
      (fun r => (targets r.1).map fun t => (t.n, t.after)) = some [(1, 0)]) := by
  refine ⟨fun h => ?_, fun now => ⟨⟨1, true, 0, 100, 1⟩, subSim F32.exact now 5 plain false, by rfl, by rfl⟩, fun now => by rfl, fun now => by rfl, fun now => by simp [reduceGoal, Goal.simulated, plain, abduce, loop, member, two, want, Known.predicted, inject, register, targets, subSim, like, eq], fun now => by rfl, fun now => by rfl⟩
  obtain ⟨es, reg', h1, _⟩ := h F32.exact eq blank 0 {} ⟨5, true, 1, none, 0⟩ [] two [] (fun n => by simp [eq])
  have : reduceGoal F32.exact eq blank 0 {} ⟨5, true, 1, none, 0⟩ (some []) two [] = none := rfl
  rw [this] at h1
  cases h1

/-- A goal in a simulation, with an overlay that has bound one of three members, which is known; another is predicted. -/
theorem C155_nonvacuous : ∃ (K : Known) (g : Goal) (os : List Ov) (s : Sim), Fair eq K g [] [] os s ∧ s.thz ≠ 0 ∧
    (reduceGoal F32.exact eq K 0 {} g (some []) [] os).map (fun r => (targets r.1).map fun t => t.n) = some [3] := by
  refine ⟨⟨fun t => if t.n = 1 then some true else none, fun t => if t.n = 2 then [(true, 3 / 4)] else []⟩, ⟨5, true, 1 / 2, some { plain with thz := 10 }, 0⟩,
    [{ simulated := true, bound := none }, { bound := some [⟨⟨1, true, 0, 100, 1 / 2⟩, false⟩, ⟨⟨2, true, 0, 100, 1 / 2⟩, false⟩, ⟨⟨3, true, 0, 100, 1 / 2⟩, false⟩] }],
    { plain with thz := 10 }, ⟨fun n => by simp [eq], rfl, ?_, ?_, ?_⟩, by decide, by decide +kernel⟩
  · simp
  · intro m hm
    simp [used, Goal.simulated, flat] at hm
    rcases hm with rfl | rfl | rfl <;> simp
  · intro m hm u hu _
    simp [used, Goal.simulated, flat] at hm hu
    rcases hm with rfl | rfl | rfl <;> rcases hu with rfl | rfl | rfl <;> exact ⟨rfl, rfl⟩

end Verif.Subgoal
