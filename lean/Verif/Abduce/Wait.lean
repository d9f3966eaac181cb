import Verif.Abduce.Props
import Verif.F32.Order
/-!
# Requirements that arrive later
-/
namespace Verif.Abduce
open Verif.F32 (Arith)
open Verif.Requirements (Status Acc Entry Query Caches)
open Ex

/-! ## C122 -/

/-- Reading back what was stored and storing it again changes nothing. -/
theorem store_store {q : Rat} (h : 0 ≤ q) : F32.store (F32.store q) = F32.store q := by
  rcases h.eq_or_lt with rfl | h
  · rw [F32.store_zero, F32.store_zero]
  · have h1 := F32.store_between h
    have h2 := (F32.log_bounds h).2
    have h3 := (F32.store_bounds h.le).2
    have h4 : F32.ulp (F32.store q) = F32.ulp q := by
      rw [F32.ulp_of _ h1 (lt_of_le_of_lt h3 h2)]
      rfl
    have hpos : 0 < F32.store q := lt_of_lt_of_le (zpow_pos (by norm_num) _) h1
    have hu := F32.ulp_pos q
    rw [F32.store_eq hpos, h4]
    rw [F32.store_eq h]
    have : (⌊q / (2 * F32.ulp q)⌋ : Rat) * (2 * F32.ulp q) / (2 * F32.ulp q) = (⌊q / (2 * F32.ulp q)⌋ : Rat) := by
      field_simp
    rw [this, Int.floor_intCast]

theorem pursue_stored (A : Arith) (c : Ctl) (now : Int) (K : Known) (b : Option (Bound × Nat)) (wre o : Bool) (conf : Rat)
    (sup : Nat) (s : Sim) (ground : Option Nat) (sb : Bool) (h : A.store (A.store conf) = A.store conf) :
    pursue A c now K b wre o (A.store conf) sup s ground sb = pursue A c now K b wre o conf sup s ground sb := by
  have : ∀ l, target A l o (A.store conf) = target A l o conf := by intro l; simp [target, h]
  unfold pursue
  simp only [this]

theorem C122_late_holds : C122_late := by
  intro A c now K fresh B a sa g m o t s res rdy now' rdy' a' hst hg hc hm hin ho hr'
  have hr : CanRun now rdy := by
    by_contra hr
    rw [reduce_idle A c now rdy K fresh B a sa g m (Or.inr (Or.inl hr))] at hin
    simp at hin
  rw [reduce_run A c now rdy K fresh B a sa g m o hc hm, abduce_actual A c now rdy K fresh B a sa g o _ hr hg,
    act_closed A c now K B a g o _ ho] at hin
  simp only [askInst, injectGoal, List.mem_append, List.mem_cons, List.mem_singleton, List.not_mem_nil, or_false,
    Eff.inject.injEq, Made.goal.injEq, reduceCtorEq, false_or, or_false] at hin
  obtain ⟨⟨rfl, rfl, _⟩, _, _⟩ := hin
  have hcfd : (instTarget A (B.inst none) (A.mul c.rate g.cfd)).cfd = A.store (A.mul c.rate g.cfd) := rfl
  refine ⟨?_, ?_, ?_⟩
  · intro ho'
    rw [reduce_run A c now' rdy' K fresh B a' sa g m o hc hm, abduce_actual A c now' rdy' K fresh B a' sa g o _ hr' hg,
      act_open A c now' K B a' g o _ ho', hcfd]
    have : (check A c now' K B a' { noSim c g.id o with isReq := true } (A.store (A.mul c.rate g.cfd))).1 =
        pursue A c now' K (B.lhs a'.loaded) (a'.r = .weakEnabled) o (A.store (A.mul c.rate g.cfd)) g.id (noSim c g.id o)
          (a'.ground.map Entry.id) false := by
      unfold check
      rcases ho' with h | h <;> rw [h] <;> dsimp only <;>
        (cases hl : B.lhs a'.loaded with
          | none => rfl
          | some x => rfl)
    rw [this, pursue_stored _ _ _ _ _ _ _ _ _ _ _ _ hst]
  · intro ho'
    unfold check
    cases h : a'.r <;> simp [Open, h] at ho' ⊢
  · unfold check
    cases h : a'.r <;> simp [Open, h] <;> cases hl : B.lhs a'.loaded <;> simp

theorem C122_rests_holds : C122_rests := by
  intro A c now K same B sa G s conf issued es issued' ok h e he
  rcases checkSim_cases A c now K same B sa G s conf issued h with h1 | ⟨l, i, r, ho, hl, hg, h1⟩
  · simp only at h1
    rw [h1] at he
    simp at he
  · have h2 : es = (signal c now same (decide (sa.r = .weakEnabled)) (target A l s.opposite conf) (G r) issued).1 :=
      congrArg Prod.fst h1
    rcases signal_effects c now same (decide (sa.r = .weakEnabled)) (target A l s.opposite conf) (G r) issued with h3 | h3
    · rw [h2, h3] at he; simp at he
    · rw [h2, h3] at he
      simp only [injectSim, List.mem_singleton] at he
      refine ⟨r, l, i, _, _, _, _, ho, hg, hl, target_says A l s.opposite conf, he, ?_, ?_⟩
      · intro v hv; exact List.mem_append.mpr (Or.inl hv)
      · intro h1 h2 h3
        rw [if_pos ⟨by simp [h1], h2, h3⟩]
        exact List.mem_append.mpr (Or.inr (List.mem_singleton.mpr rfl))

/-- What each visit keeps, the loop keeps. -/
theorem gcWalk_keeps {α σ : Type} (P : σ → Prop) (old : α → Bool) (f : σ → α → σ × Bool) (hf : ∀ x e, P x → P (f x e).1) :
    ∀ k (s : CellList.St α) o x r, P x → CellList.gcWalk old f k s o x = some r → P r.1 := by
  intro k
  induction k with
  | zero =>
    intro s o x r hx h
    cases o with
    | none => cases h; exact hx
    | some i => cases h
  | succ k ih =>
    intro s o x r hx h
    cases o with
    | none => cases h; exact hx
    | some i =>
      rw [CellList.gcWalk] at h
      cases hc : s.cell i with
      | none => rw [hc] at h; cases h
      | some cc =>
        rw [hc] at h
        dsimp only at h
        by_cases ho : old cc.data = true
        · rw [if_pos ho] at h
          cases hn : CellList.eraseNext s i with
          | none => rw [hn] at h; cases h
          | some y => rw [hn] at h; exact ih _ _ _ _ hx h
        · rw [if_neg ho] at h
          have h1 := hf x cc.data hx
          rcases hb : f x cc.data with ⟨x', b⟩
          rw [hb] at h h1
          cases b with
          | true => cases h; exact h1
          | false => exact ih _ _ _ _ h1 h

theorem gcAll_keeps {α σ : Type} (P : σ → Prop) (old : α → Bool) (f : σ → α → σ × Bool) (hf : ∀ x e, P x → P (f x e).1)
    (s : CellList.St α) (x : σ) {r} (hx : P x) (h : CellList.gcAll old f s x = some r) : P r.1 :=
  gcWalk_keeps P old f hf _ _ _ _ _ hx h

/-- With weak requirements in the model, an answer that allows chaining has a ground. -/
def Grounded (a : Acc) : Prop := a.r ≠ .noRequirement ∧ (a.r = .weakEnabled → a.ground ≠ none)

theorem simBwdBoth_grounded (q : Query) (a : Acc) (e : Entry) (h : Grounded a) : Grounded (Requirements.simBwdBoth q a e) := by
  unfold Requirements.simBwdBoth
  split
  · split
    · split
      · exact ⟨by simp, by simp⟩
      · exact h
    · split
      · dsimp only
        split
        · exact ⟨by simp, by simp⟩
        · exact h
      · exact h
  · exact h

theorem simBwd_grounded (q : Query) (now wr sr : Nat) (caches : Caches) (hw : 0 < wr) {sa caches'}
    (h : Requirements.simBwd q now wr sr caches = some (sa, caches')) : Grounded sa := by
  unfold Requirements.simBwd at h
  rw [if_neg (show ¬ wr + sr = 0 by omega)] at h
  by_cases hs : sr = 0
  · rw [if_pos hs] at h
    split at h
    · cases h
    · rename_i a _ pos' hg
      cases h
      refine gcAll_keeps Grounded _ _ ?_ _ _ (by exact ⟨by simp, by simp⟩) hg
      intro x e hx
      split
      · exact ⟨by simp, by simp⟩
      · exact hx
  · rw [if_neg hs, if_neg (show ¬ wr = 0 by omega)] at h
    split at h
    · cases h
    · rename_i a _ neg' hg
      split at h
      · cases h
      · rename_i b _ pos' hg'
        cases h
        have h1 : Grounded a := by
          refine gcAll_keeps Grounded _ _ ?_ _ _ (by exact ⟨by simp, by simp⟩) hg
          intro x e hx
          split
          · exact ⟨by simp, by simp⟩
          · exact hx
        have h2 : Grounded b := gcAll_keeps Grounded _ _ (fun x e hx => simBwdBoth_grounded q x e hx) _ _ h1 hg'
        split
        · exact h2
        · exact h2

theorem checkSim_safe (A : Arith) (c : Ctl) (now : Int) (K : Known) (same : Target → Target → Bool) (B : Binds) (sa : Acc)
    (G : Entry → Ground) (s : Sim) (conf : Rat) (issued : List Issued) (h : Grounded sa) :
    checkSim A c now K same B sa G s conf issued ≠ none := by
  unfold checkSim
  by_cases ho : sa.r = .weakEnabled ∨ sa.r = .noRequirement
  swap
  · rw [if_neg ho]; simp
  rw [if_pos ho]
  cases hl : B.lhs sa.loaded with
  | none => simp
  | some x =>
    dsimp only
    split_ifs
    · simp
    · cases hg : sa.ground with
      | none => exact absurd hg (h.2 (ho.resolve_right h.1))
      | some e => simp

/-- C122 in part: when a requirement arrives the model is used as if it had been there, and a simulation goes on from
the requirement; a model with weak requirements never reads a requirement that is not there. Missing: models without
weak requirements, see `C122_waiting_violated`. -/
theorem C122_waiting_partial : C122_late ∧ C122_rests ∧
    ∀ A c now K same B q caches now' sa caches' G s conf issued, 0 < c.wr →
      Requirements.simBwd q now' c.wr c.sr caches = some (sa, caches') →
      checkSim A c now K same B sa G s conf issued ≠ none :=
  ⟨C122_late_holds, C122_rests_holds, fun A c now K same B q caches now' _ _ G s conf issued hw h =>
    checkSim_safe A c now K same B _ G s conf issued (simBwd_grounded q now' c.wr c.sr caches hw h)⟩

/-- The hypothesis of C121: it holds of the answers for one model, whatever its caches. -/
theorem agree_of_model (q q' : Query) (now wr sr : Nat) (c c' : Caches) {a sa d d'}
    (h : Requirements.bwd q now wr sr c = some (a, d)) (h' : Requirements.simBwd q' now wr sr c' = some (sa, d')) :
    Agree a sa := by
  intro hn
  by_cases hw : wr = 0
  · subst hw
    unfold Requirements.bwd at h
    by_cases hs : sr = 0
    · subst hs
      cases h
      exact Or.inl rfl
    · rw [if_neg (show ¬ 0 + sr = 0 by omega), if_neg hs, if_pos rfl] at h
      split at h
      · cases h
      · rename_i b _ neg' hg
        cases h
        refine gcAll_keeps (fun x => x.r = .noRequirement ∨ x.r = .strongNoWeak) _ _ ?_ _ _ (Or.inl rfl) hg
        intro x e hx
        split
        · exact Or.inr rfl
        · exact hx
  · exact absurd hn (simBwd_grounded q' now wr sr c' (by omega) h').1

namespace Ex
/-- A model with a strong requirement only, of which there is no instance. -/
def strongOnly : Ctl := { ctl with wr := 0 }
def query : Query := ⟨fun _ => true, fun _ => true, fun _ _ => false, fun _ => true⟩
def empty : Caches := ⟨CellList.empty, CellList.empty⟩
/-- A controller that waits for a requirement of a simulated goal. -/
def waiting : Sim := { below with isReq := true }
def ground : Entry → Ground := fun e => ⟨e.id, [waiting], [e.id], e.id + 100⟩
end Ex

/-- C122 fails as stated: a simulated goal of a model with strong requirements only waits for a requirement; when
another simulated prediction of the model's instance arrives, nothing forbids the model, and the ground that was not
found is read. -/
theorem C122_waiting_violated : ¬ C122_full ∧
    Requirements.simBwd query 10 strongOnly.wr strongOnly.sr empty = some ({ r := .noRequirement }, empty) ∧
    ∀ same issued, checkSim F32.exact strongOnly 10 nothing same binds { r := .noRequirement } ground waiting 1 issued = none := by
  have h1 : Requirements.simBwd query 10 strongOnly.wr strongOnly.sr empty = some ({ r := .noRequirement }, empty) := rfl
  have h2 : ∀ same issued, checkSim F32.exact strongOnly 10 nothing same binds { r := .noRequirement } ground waiting 1 issued = none := by
    intro same issued
    rfl
  refine ⟨?_, h1, h2⟩
  intro h
  exact h.2.1 F32.exact strongOnly 10 nothing (fun _ _ => false) binds query empty 10 _ _ ground waiting 1 [] h1 (h2 _ _)

/-- C122 is not vacuous: a goal waits for a requirement; it arrives and the left-hand side becomes a goal; the numbers of
the source meet the hypothesis; so it is in a simulation, where the prediction rests on the requirement. -/
theorem C122_nonvacuous :
    (∀ q, 0 ≤ q → F32.single.store (F32.single.store q) = F32.single.store q) ∧
    (∃ t s res, .inject (.goal t s none) 10 res ∈ reduceGoal F32.exact plain 10 ready nothing (fun _ => true) binds no no goal .rhs ∧
      ∃ u v r, .inject (.goal u v (some 7)) 20 r ∈ (check F32.exact plain 20 nothing binds yes s t.cfd).1) ∧
    ∃ t vs r, checkSim F32.exact plain 20 nothing (fun t u => t == u) binds yes ground waiting 1 [] =
      some ([.inject (.pred t [waiting] vs) 20 r], [⟨t, [waiting], vs⟩], true) ∧ 107 ∈ vs := by
  refine ⟨fun q h => store_store h, ?_, ?_⟩
  · refine ⟨instTarget F32.exact ⟨31, true, 0, 90⟩ 1, { noSim plain 5 false with isReq := true }, 1, by decide +kernel,
      target F32.exact ⟨20, true, 50, 100⟩ false 1, noSim plain 5 false, 1, by decide +kernel⟩
  · exact ⟨target F32.exact ⟨20, true, 50, 100⟩ false 1, [7, 107], 80, by decide +kernel, by decide⟩

/-! ## C123 -/

theorem reissue_none {same : Target → Target → Bool} {t : Target} {vs : List Nat} {is : List Issued}
    (h : reissue same t vs is = none) : ∀ x ∈ is, same t x.t = false := by
  induction is with
  | nil => simp
  | cons x l ih =>
    rw [reissue] at h
    by_cases hx : same t x.t = true
    · rw [if_pos hx] at h; cases h
    · rw [if_neg hx, Option.map_eq_none_iff] at h
      intro y hy
      rcases List.mem_cons.mp hy with rfl | hy
      · exact Bool.eq_false_iff.mpr hx
      · exact ih h y hy

/-- The list changes in the validities of the first that is the same. -/
theorem reissue_some {same : Target → Target → Bool} {t : Target} {vs : List Nat} {is is' : List Issued}
    (h : reissue same t vs is = some is') : ∃ l x r, is = l ++ x :: r ∧ same t x.t = true ∧ (∀ y ∈ l, same t y.t = false) ∧
      is' = l ++ { x with validities := x.validities.filter (fun v => vs.contains v) } :: r := by
  induction is generalizing is' with
  | nil => cases h
  | cons x l ih =>
    rw [reissue] at h
    by_cases hx : same t x.t = true
    · rw [if_pos hx] at h
      cases h
      exact ⟨[], x, l, rfl, hx, by simp, rfl⟩
    · rw [if_neg hx, Option.map_eq_some_iff] at h
      obtain ⟨l', h1, rfl⟩ := h
      obtain ⟨a, y, r, rfl, h2, h3, rfl⟩ := ih h1
      refine ⟨x :: a, y, r, rfl, h2, ?_, rfl⟩
      intro z hz
      rcases List.mem_cons.mp hz with rfl | hz
      · exact Bool.eq_false_iff.mpr hx
      · exact h3 z hz

theorem predicted_append (a b : List Eff) : predicted (a ++ b) = predicted a ++ predicted b := List.filterMap_append

/-- What holds after the requirements `l` have come. -/
structure Inv (A : Arith) (c : Ctl) (same : Target → Target → Bool) (B : Binds) (G : Entry → Ground) (s : Sim) (conf : Rat)
    (l : List Entry) (es : List Eff) (is : List Issued) : Prop where
  targets : predicted es = is.map Issued.t
  apart : (is.map Issued.t).Pairwise (fun t u => same t u = false)
  each : ∀ e ∈ l, ∀ b i, B.lhs (some e) = some (b, i) → ∃ x ∈ is, same (target A b s.opposite conf) x.t = true
  rests : ∀ x ∈ is, ∀ e ∈ l, ∀ b i, B.lhs (some e) = some (b, i) → same (target A b s.opposite conf) x.t = true →
    ∀ v ∈ x.validities, Rests c (G e) v

theorem rests_mem {c : Ctl} {g : Ground} {v : Nat}
    (h : v ∈ g.validities ++ (if true = true ∧ 0 < c.wr ∧ 0 < c.sr then [g.consequence] else [])) : Rests c g v := by
  rcases List.mem_append.mp h with h | h
  · exact Or.inl h
  · split at h
    · rename_i hw
      exact Or.inr ⟨hw.2.1, hw.2.2, List.mem_singleton.mp h⟩
    · simp at h

theorem signal_inv {A : Arith} {c : Ctl} {same : Target → Target → Bool} {B : Binds} {G : Entry → Ground} {s : Sim} {conf : Rat}
    (hq : Equiv same) {l : List Entry} {es : List Eff} {is : List Issued} (now : Int) (I : Inv A c same B G s conf l es is)
    (e : Entry) (b : Bound) (i : Nat) (hb : B.lhs (some e) = some (b, i)) (hs : ∃ x, (G e).sims = [x]) :
    Inv A c same B G s conf (l ++ [e]) (es ++ (signal c now same true (target A b s.opposite conf) (G e) is).1)
      (signal c now same true (target A b s.opposite conf) (G e) is).2 := by
  obtain ⟨y, hy⟩ := hs
  generalize ht : target A b s.opposite conf = t
  unfold signal
  rw [hy]
  dsimp only
  cases hr : reissue same t (G e).validities is with
  | none =>
    have h1 := reissue_none hr
    dsimp only
    refine ⟨?_, ?_, ?_, ?_⟩
    · rw [predicted_append, I.targets, List.map_append]; rfl
    · rw [List.map_append, List.pairwise_append]
      refine ⟨I.apart, by simp, ?_⟩
      intro u hu w hw
      obtain ⟨x, hx, rfl⟩ := List.mem_map.mp hu
      simp only [List.map_cons, List.map_nil, List.mem_singleton] at hw
      rw [hw]
      cases hz : same x.t t with
      | false => rfl
      | true => exact absurd (hq.symm _ _ hz) (by rw [h1 x hx]; simp)
    · intro f hf b' i' hb'
      rcases List.mem_append.mp hf with hf | hf
      · obtain ⟨x, hx, h2⟩ := I.each f hf b' i' hb'
        exact ⟨x, List.mem_append.mpr (Or.inl hx), h2⟩
      · rw [List.mem_singleton] at hf
        subst hf
        rw [hb] at hb'
        cases hb'
        exact ⟨_, List.mem_append.mpr (Or.inr (List.mem_singleton.mpr rfl)), by rw [ht]; exact hq.refl _⟩
    · intro x hx' f hf b' i' hb' hsame v hv
      rcases List.mem_append.mp hx' with hx | hx
      · rcases List.mem_append.mp hf with hf | hf
        · exact I.rests x hx f hf b' i' hb' hsame v hv
        · rw [List.mem_singleton] at hf
          subst hf
          rw [hb] at hb'
          cases hb'
          rw [ht, h1 x hx] at hsame
          cases hsame
      · rw [List.mem_singleton] at hx
        subst hx
        rcases List.mem_append.mp hf with hf | hf
        · obtain ⟨x, hx, h2⟩ := I.each f hf b' i' hb'
          have h3 := hq.trans _ _ _ (hq.symm _ _ hsame) h2
          dsimp only at h3
          rw [h1 x hx] at h3
          cases h3
        · rw [List.mem_singleton] at hf
          subst hf
          exact rests_mem hv
  | some is' =>
    obtain ⟨a, x, r, rfl, h1, h2, rfl⟩ := reissue_some hr
    dsimp only
    have hmap : (a ++ { x with validities := x.validities.filter (fun v => (G e).validities.contains v) } :: r).map Issued.t =
        (a ++ x :: r).map Issued.t := by simp
    refine ⟨?_, ?_, ?_, ?_⟩
    · rw [hmap, List.append_nil]; exact I.targets
    · rw [hmap]; exact I.apart
    · intro f hf b' i' hb'
      have hex : ∃ z ∈ a ++ x :: r, same (target A b' s.opposite conf) z.t = true := by
        rcases List.mem_append.mp hf with hf | hf
        · exact I.each f hf b' i' hb'
        · rw [List.mem_singleton] at hf
          subst hf
          rw [hb] at hb'
          cases hb'
          exact ⟨x, by simp, by rw [ht]; exact h1⟩
      obtain ⟨z, hz, h3⟩ := hex
      have : z.t ∈ (a ++ { x with validities := x.validities.filter (fun v => (G e).validities.contains v) } :: r).map Issued.t := by
        rw [hmap]; exact List.mem_map.mpr ⟨z, hz, rfl⟩
      obtain ⟨z', hz', h4⟩ := List.mem_map.mp this
      exact ⟨z', hz', by rw [h4]; exact h3⟩
    · intro z hz f hf b' i' hb' hsame v hv
      have hold : ∀ w ∈ a ++ x :: r, same (target A b' s.opposite conf) w.t = true → v ∈ w.validities → f ∈ l →
          Rests c (G f) v := fun w hw h3 h4 hf => I.rests w hw f hf b' i' hb' h3 v h4
      rcases List.mem_append.mp hf with hf | hf
      · rcases List.mem_append.mp hz with hz | hz
        · exact hold z (List.mem_append.mpr (Or.inl hz)) hsame hv hf
        · rcases List.mem_cons.mp hz with rfl | hz
          · exact hold x (by simp) hsame (List.mem_filter.mp hv).1 hf
          · exact hold z (List.mem_append.mpr (Or.inr (List.mem_cons_of_mem _ hz))) hsame hv hf
      · rw [List.mem_singleton] at hf
        subst hf
        rw [hb] at hb'
        cases hb'
        rw [ht] at hsame
        rcases List.mem_append.mp hz with hz | hz
        · rw [h2 z hz] at hsame; cases hsame
        · rcases List.mem_cons.mp hz with rfl | hz
          · exact Or.inl (by simpa using (List.mem_filter.mp hv).2)
          · have h3 := I.apart
            rw [List.map_append, List.pairwise_append, List.map_cons, List.pairwise_cons] at h3
            have h4 := h3.2.1.1 z.t (List.mem_map.mpr ⟨z, hz, rfl⟩)
            rw [hq.trans _ _ _ (hq.symm _ _ h1) hsame] at h4
            cases h4

theorem arrivals_inv {A : Arith} {c : Ctl} {same : Target → Target → Bool} {B : Binds} {G : Entry → Ground} {s : Sim} {conf : Rat}
    (hq : Equiv same) (now : Int) (K : Known) (hK : ∀ t, K.seen t = none ∧ K.foreseen t = none) :
    ∀ (l l₀ : List Entry) (es₀ es : List Eff) (is₀ is : List Issued), Inv A c same B G s conf l₀ es₀ is₀ →
      (∀ e ∈ l, B.lhs (some e) ≠ none) → (∀ e ∈ l, ∃ x, (G e).sims = [x]) →
      arrivals A c now K same B G s conf l is₀ = some (es, is) → Inv A c same B G s conf (l₀ ++ l) (es₀ ++ es) is := by
  intro l
  induction l with
  | nil =>
    intro l₀ es₀ es is₀ is I _ _ h
    cases h
    simpa using I
  | cons e l ih =>
    intro l₀ es₀ es is₀ is I hl hs h
    rw [arrivals] at h
    obtain ⟨⟨b, i⟩, hb⟩ := Option.ne_none_iff_exists'.mp (hl e (by simp))
    have hc : checkSim A c now K same B { r := .weakEnabled, loaded := some e, ground := some e } G s conf is₀ =
        some ((signal c now same true (target A b s.opposite conf) (G e) is₀).1,
          (signal c now same true (target A b s.opposite conf) (G e) is₀).2, true) := by
      unfold checkSim
      rw [if_pos (Or.inl rfl)]
      dsimp only
      rw [hb]
      dsimp only
      rw [if_neg (by simp [hK])]
      rfl
    rw [hc] at h
    dsimp only at h
    cases hr : arrivals A c now K same B G s conf l (signal c now same true (target A b s.opposite conf) (G e) is₀).2 with
    | none => rw [hr] at h; cases h
    | some y =>
      obtain ⟨es', is'⟩ := y
      rw [hr] at h
      cases h
      have := ih (l₀ ++ [e]) _ es' _ is (signal_inv hq now I e b i hb (hs e (by simp)))
        (fun f hf => hl f (List.mem_cons_of_mem _ hf)) (fun f hf => hs f (List.mem_cons_of_mem _ hf)) hr
      simpa [List.append_assoc] using this

/-- C123 in part: a command is predicted once in a simulation, and stands as long as what one of the requirements that
allow it rests on stands. Missing: that it falls with all of them, see `C123_signalled_violated`. -/
theorem C123_signalled_partial : ∀ A c now K same B G s conf l es is, Equiv same →
    (∀ t, K.seen t = none ∧ K.foreseen t = none) →
    (∀ e ∈ l, B.lhs (some e) ≠ none) → (∃ x, ∀ e ∈ l, (G e).sims = [x]) →
    arrivals A c now K same B G s conf l [] = some (es, is) →
    (predicted es).Pairwise (fun t u => same t u = false) ∧
    (∀ e ∈ l, ∀ b i t, B.lhs (some e) = some (b, i) → Says A b s.opposite conf t →
      ∃ x ∈ is, same t x.t = true ∧ x.t ∈ predicted es) ∧
    ∀ (stands : Nat → Prop), ∀ x ∈ is, ∀ e ∈ l, ∀ b i t, B.lhs (some e) = some (b, i) →
      Says A b s.opposite conf t → same t x.t = true → (∀ v, Rests c (G e) v → stands v) → ∀ v ∈ x.validities, stands v := by
  intro A c now K same B G s conf l es is hq hK hl hs h
  have I := arrivals_inv hq now K hK l [] [] es [] is
    ⟨rfl, List.Pairwise.nil, by simp, by simp⟩ hl (fun e he => hs.imp fun x hx => hx e he) h
  simp only [List.nil_append] at I
  refine ⟨by rw [I.targets]; exact I.apart, ?_, ?_⟩
  · intro e he b i t hb ht
    obtain ⟨x, hx, h1⟩ := I.each e he b i hb
    rw [says_eq ht]
    exact ⟨x, hx, h1, by rw [I.targets]; exact List.mem_map.mpr ⟨x, hx, rfl⟩⟩
  · intro stands x hx e he b i t hb ht hsame hv v hm
    rw [says_eq ht] at hsame
    exact hv v (I.rests x hx e he b i hb hsame v hm)

namespace Ex
def req' : Entry := { req with id := 8 }
/-- One command, whichever requirement allows it. -/
def one : Target → Target → Bool := fun t u => t == u
end Ex

/-- C123 fails as stated: two weak requirements allow the same command; it then rests on nothing, and stands although
both are withdrawn. -/
theorem C123_signalled_violated : ¬ C123_full ∧
    ∃ t r, arrivals F32.exact ctl 10 nothing one binds ground waiting 1 [req, req'] [] =
      some ([.inject (.pred t [waiting] [7, 107]) 10 r], [⟨t, [waiting], []⟩]) := by
  have h : arrivals F32.exact ctl 10 nothing one binds ground waiting 1 [req, req'] [] =
      some ([.inject (.pred (target F32.exact ⟨20, true, 50, 100⟩ false 1) [waiting] [7, 107]) 10 90],
        [⟨target F32.exact ⟨20, true, 50, 100⟩ false 1, [waiting], []⟩]) := by decide +kernel
  refine ⟨?_, _, _, h⟩
  intro hf
  have h1 := (hf F32.exact ctl 10 nothing one binds ground waiting 1 [req, req'] _ _
    ⟨by simp [one], by intro t u; simp only [one, beq_iff_eq]; exact fun h => h.symm, by intro t u v; simp only [one, beq_iff_eq]; exact fun h h' => h.trans h'⟩
    (fun _ => ⟨rfl, rfl⟩) (by intro e _; simp [binds]) ⟨waiting, fun e _ => rfl⟩ h).withdrawn (fun _ => False)
    ⟨target F32.exact ⟨20, true, 50, 100⟩ false 1, [waiting], []⟩ (by simp) (by simp)
  obtain ⟨e, _, b, i, t, _, _, _, h2⟩ := h1
  exact h2 e.id (Or.inl (by simp [ground]))

/-- C123 is not vacuous: two requirements that share what they rest on. -/
theorem C123_nonvacuous :
    ∃ t r, arrivals F32.exact ctl 10 nothing one binds (fun e => ⟨e.id, [waiting], [3, e.id], e.id + 100⟩) waiting 1 [req, req'] [] =
      some ([.inject (.pred t [waiting] [3, 7, 107]) 10 r], [⟨t, [waiting], [3]⟩]) := by
  refine ⟨target F32.exact ⟨20, true, 50, 100⟩ false 1, 90, by decide +kernel⟩

end Verif.Abduce
