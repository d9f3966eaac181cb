import Verif.Simout.Spec
/-!
# C179
-/
namespace Verif.Simout

theorem inSim_iff (r : Nat) (sims : List Sim) : inSim r sims = true ↔ Within r sims := by
  simp [inSim, Within]

/-- A monitor of a goal that is no longer simulating, or is gone, or whose goal is, tells nothing. -/
theorem run_over {m : Mon} (hk : m.kind = .g) : ∀ (es : List Event) (s : State),
    (s.simulating = false ∨ s.invalid = true ∨ s.gone = true) → run m s es = some []
  | [], _, _ => rfl
  | e :: es, s, h0 => by
    rw [run]
    by_cases hgone : s.gone = true
    · rw [if_pos hgone]
    rw [if_neg hgone]
    have key : ∃ s', step m s e = some (s', []) ∧ (s'.simulating = false ∨ s'.invalid = true ∨ s'.gone = true) := by
      cases e with
      | time =>
        refine ⟨_, rfl, ?_⟩
        unfold update
        rw [hk]
        split
        · exact .inr (.inr rfl)
        · dsimp only
          split
          · exact .inl rfl
          · exact .inr (.inr rfl)
      | invalidated => exact ⟨_, rfl, .inr (.inl rfl)⟩
      | signal sims met =>
        simp only [step, hk]
        exact ⟨_, rfl, h0⟩
      | input i w =>
        simp only [step, hk, reduceG]
        repeat' split
        all_goals simp_all
    obtain ⟨s', e1, e2⟩ := key
    rw [e1]
    show (run m s' es).map _ = _
    rw [run_over hk es s' e2]
    rfl

/-- Other controllers tell nothing. -/
theorem run_primary {m : Mon} (hc : m.ctl = .primary) : ∀ (es : List Event) (s : State), run m s es = some []
  | [], _ => rfl
  | e :: es, s => by
    rw [run]
    by_cases hgone : s.gone = true
    · rw [if_pos hgone]
    rw [if_neg hgone]
    have key : ∃ s', step m s e = some (s', []) := by
      cases e with
      | time => exact ⟨_, rfl⟩
      | invalidated => exact ⟨_, rfl⟩
      | input i w =>
        simp only [step]
        cases hk : m.kind with
        | g =>
          simp only [reduceG, register, hc, Option.map_some]
          repeat' split
          all_goals simp_all
        | r => simp [reduceR]; split <;> simp
        | sr => simp [reduceR]; split <;> simp
        | sg =>
          simp only [reduceSG, register, hc, Option.map_some]
          repeat' split
          all_goals simp_all
      | signal sims met =>
        simp only [step]
        cases hk : m.kind with
        | g => exact ⟨_, rfl⟩
        | sg => exact ⟨_, rfl⟩
        | r =>
          simp only [signalR, register, hc, Option.map_some]
          repeat' split
          all_goals simp_all
        | sr =>
          simp only [signalSR, register, hc]
          repeat' split
          all_goals simp_all
    obtain ⟨s', e1⟩ := key
    rw [e1]
    show (run m s' es).map _ = _
    rw [run_primary hc es s']
    rfl

/-- The monitors of goals of models at the top level. -/
theorem run_top {m : Mon} (hk : m.kind = .g) (hc : m.ctl = .top) : ∀ (es : List Event) (s : State), s.invalid = false → s.simulating = true →
    s.gone = false → (s.injected = true ∨ ∀ i w, Event.input i w ∈ es → w = false) →
    ∃ ts, run m s es = some ts ∧ Each (Tells m) (allShown m es) ts
  | [], s, _, _, _, _ => ⟨[], rfl, trivial⟩
  | e :: es, s, h1, h2, h3, h4 => by
    have h4' : s.injected = true ∨ ∀ i w, Event.input i w ∈ es → w = false :=
      h4.imp id fun h i w hi => h i w (List.mem_cons_of_mem _ hi)
    rw [run, if_neg (by rw [h3]; decide), allShown]
    cases e with
    | time =>
      have e1 : step m s .time = some ({ s with simulating := false }, []) := by simp [step, update, h1, h2, hk]
      rw [e1, if_pos (show Ends m .time from trivial)]
      refine ⟨[], ?_, trivial⟩
      show (run m _ es).map _ = _
      rw [run_over hk es _ (.inl rfl)]
      rfl
    | invalidated =>
      rw [if_pos (show Ends m .invalidated from trivial)]
      refine ⟨[], ?_, trivial⟩
      show (run m { s with invalid := true } es).map _ = _
      rw [run_over hk es _ (.inr (.inl rfl))]
      rfl
    | signal sims met =>
      have e1 : step m s (.signal sims met) = some (s, []) := by simp [step, hk]
      rw [if_neg (by simp [Ends, hk]), e1, show shown m (.signal sims met) = none by simp [shown, hk]]
      obtain ⟨ts, t1, t2⟩ := run_top hk hc es s h1 h2 h3 h4'
      refine ⟨ts, ?_, t2⟩
      show (run m s es).map _ = _
      rw [t1]
      rfl
    | input i w =>
      have hw : (!s.injected && s.predicted && w) = false := by
        rcases h4 with h | h
        · rw [h]; rfl
        · rw [h i w List.mem_cons_self, Bool.and_false]
      have hr : reduceG m s i w = reduceG m s i w := rfl
      conv at hr => rhs; unfold reduceG
      rw [if_neg (by rw [h1]; decide), hw, if_neg (by decide)] at hr
      have same : ∀ o : List Told, step m s (.input i w) = some (s, o) → ¬ Ends m (.input i w) →
          Each (Tells m) (shown m (.input i w)).toList o →
          ∃ ts, ((step m s (.input i w)).bind fun x => (run m x.1 es).map fun os => x.2 ++ os) = some ts ∧
            Each (Tells m) (if Ends m (.input i w) then [] else (shown m (.input i w)).toList ++ allShown m es) ts := by
        intro o e1 e2 e3
        obtain ⟨ts, t1, t2⟩ := run_top hk hc es s h1 h2 h3 h4'
        refine ⟨o ++ ts, ?_, ?_⟩
        · rw [e1]
          show (run m s es).map _ = _
          rw [t1]
          rfl
        · rw [if_neg e2]
          cases hs : shown m (.input i w) with
          | none =>
            rw [hs] at e3
            cases o with
            | nil => exact t2
            | cons => exact absurd e3 id
          | some x =>
            rw [hs] at e3
            match o, e3 with
            | [t], e3 => exact ⟨e3.1, t2⟩
      have stop : ∀ s' : State, step m s (.input i w) = some (s', []) → s'.gone = true → Ends m (.input i w) →
          ∃ ts, ((step m s (.input i w)).bind fun x => (run m x.1 es).map fun os => x.2 ++ os) = some ts ∧
            Each (Tells m) (if Ends m (.input i w) then [] else (shown m (.input i w)).toList ++ allShown m es) ts := by
        intro s' e1 e2 e3
        refine ⟨[], ?_, by rw [if_pos e3]; trivial⟩
        rw [e1]
        show (run m s' es).map _ = _
        rw [run_over hk es s' (.inr (.inr e2))]
        rfl
      have hst : step m s (.input i w) = reduceG m s i w := by simp [step, hk]
      cases i with
      | pred id t sims =>
        simp only [h2, if_true] at hr
        by_cases hi : inSim m.me sims = true
        · have hW := (inSim_iff _ _).mp hi
          rw [if_pos hi] at hr
          cases ha : t.about with
          | goalSuccess =>
            rw [ha] at hr
            exact same [] (hst.trans hr) (by simp [Ends]) (by simp [shown, ha, Each])
          | otherSuccess =>
            rw [ha] at hr
            exact same [] (hst.trans hr) (by simp [Ends]) (by simp [shown, ha, Each])
          | object =>
            rw [ha] at hr
            cases hv : t.ev with
            | pos =>
              simp only [hv, register, hc, inject, Option.map_some] at hr
              exact same _ (hst.trans hr) (by simp [Ends]) (by simp [shown, ha, hv, hk, hW, Each, Tells])
            | neg =>
              simp only [hv, register, hc, inject, Option.map_some] at hr
              exact same _ (hst.trans hr) (by simp [Ends]) (by simp [shown, ha, hv, hk, hW, Each, Tells])
            | fail =>
              simp only [hv] at hr
              exact same [] (hst.trans hr) (by simp [Ends]) (by simp [shown, hv, Each])
        · have hW : ¬ Within m.me sims := fun h => hi ((inSim_iff _ _).mpr h)
          rw [if_neg hi] at hr
          exact same [] (hst.trans hr) (by simp [Ends]) (by simp [shown, hW, Each])
      | actual f ground =>
        cases ground with
        | true =>
          simp only [if_true] at hr
          exact stop _ (hst.trans hr) rfl (by simp [Ends, hk])
        | false =>
          simp only [Bool.false_eq_true, if_false] at hr
          cases hv : f.ev with
          | pos =>
            simp only [hv] at hr
            exact stop _ (hst.trans hr) rfl (by simp [Ends, hk, hv])
          | neg =>
            simp only [hv] at hr
            exact stop _ (hst.trans hr) rfl (by simp [Ends, hk, hv])
          | fail =>
            simp only [hv] at hr
            exact same [] (hst.trans hr) (by simp [Ends, hv]) (by simp [shown, Each])

/-- What is proved of `C179_full`: of models at the top level all outcomes are told, unless a predicted evidence turns out wrong meanwhile; other
models tell none; in neither case is the behaviour undefined. -/
theorem C179_outcomes_partial (m : Mon) (s : State) (es : List Event) (hm : m.Made) (hs : Begins s) :
    (m.ctl = .top → (s.predicted = false ∨ ∀ i w, Event.input i w ∈ es → w = false) →
      ∃ ts, run m s es = some ts ∧ Each (Tells m) (allShown m es) ts) ∧
    (m.ctl = .primary → run m s es = some []) := by
  obtain ⟨h1, h2, h3, h4⟩ := hs
  refine ⟨fun hc h => run_top (hm hc) hc es s h1 h2 h3 (h.imp (fun h => by rw [h4, h]; rfl) id), fun hc => run_primary hc es s⟩

def f₁ : Fact := { id := 4, about := .object, ev := .pos, after := 10, before := 20, cfd := 1 }
def f₂ : Fact := { id := 5, about := .object, ev := .neg, after := 30, before := 40, cfd := 1 }
def s₁ : List Sim := [⟨1, 7⟩]
def m₁ : Mon := { kind := .g, ctl := .top, me := 7, goal := 9, root := 7 }
def m₂ : Mon := { kind := .r, ctl := .primary, me := 8, goal := 9, root := 7 }
def m₃ : Mon := { kind := .g, ctl := .primary, me := 7, goal := 9, root := 7 }

/-- What `C179_full` asks for and is not so: the outcomes that are shown to the monitors of other models than those at the top level (goals and
requirements) are not told, the prediction is made and left; and the input that comes when a predicted evidence has turned out wrong is not
looked at. -/
theorem C179_outcomes_violated : ¬ C179_full ∧
    (m₂.Made ∧ run m₂ {} [.signal s₁ true] = some [] ∧ (allShown m₂ [.signal s₁ true]).length = 1) ∧
    (m₃.Made ∧ run m₃ {} [.input (.pred 3 f₁ s₁) false] = some [] ∧ (allShown m₃ [.input (.pred 3 f₁ s₁) false]).length = 1) ∧
    (m₁.Made ∧ Begins { injected := false, predicted := true } ∧
      run m₁ { injected := false, predicted := true } [.input (.pred 3 f₁ s₁) true] = some [] ∧
      (allShown m₁ [.input (.pred 3 f₁ s₁) true]).length = 1) := by
  refine ⟨fun h => ?_, ⟨(fun e => by cases e), by decide, by decide⟩, ⟨(fun e => by cases e), by decide, by decide⟩,
    ⟨(fun _ => rfl), ⟨rfl, rfl, rfl, rfl⟩, by decide, by decide⟩⟩
  obtain ⟨ts, h1, h2⟩ := h m₂ {} [.signal s₁ true] (fun e => by cases e) ⟨rfl, rfl, rfl, rfl⟩
  have e : run m₂ {} [.signal s₁ true] = some [] := by decide
  rw [e] at h1
  cases h1
  exact h2

/-- A success and a failure are told, and nothing after the time of the monitor. -/
theorem C179_nonvacuous : m₁.Made ∧ Begins {} ∧
    run m₁ {} [.input (.pred 3 f₁ s₁) false, .input (.pred 6 f₁ [⟨2, 8⟩]) false, .input (.pred 5 f₂ s₁) false, .time,
      .input (.pred 3 f₁ s₁) false] =
      some [⟨9, true, 3, 10, 20, 1, s₁⟩, ⟨9, false, 5, 30, 40, 1, s₁⟩] :=
  ⟨(fun _ => rfl), ⟨rfl, rfl, rfl, rfl⟩, by decide⟩

end Verif.Simout
