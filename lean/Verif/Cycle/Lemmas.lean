import Verif.Cycle.Spec
/-!
# What an update does to each view
-/
namespace Verif.Cycle
open Verif.F32 Verif.ViewCtl

theorem run_append (A : Arith) (g : G) (xs ys : List Op) : run A g (xs ++ ys) = run A (run A g xs) ys := by
  simp only [run, List.foldl_append]

theorem run_cons (A : Arith) (g : G) (x : Op) (ys : List Op) : run A g (x :: ys) = run A (step A g x) ys := rfl

theorem run_snoc (A : Arith) (g : G) (xs : List Op) (x : Op) : run A g (xs ++ [x]) = step A (run A g xs) x := by
  rw [run_append]; rfl

theorem Each.append {A : Arith} {P : G → Op → Prop} : ∀ {xs ys : List Op} {g : G},
    Each A P g (xs ++ ys) ↔ Each A P g xs ∧ Each A P (run A g xs) ys
  | [], ys, g => by simp [Each, run]
  | x :: xs, ys, g => by
    rw [List.cons_append]
    simp only [Each]
    rw [Each.append (xs := xs), run_cons, and_assoc]

theorem oks_each {A : Arith} : ∀ {xs : List Op} {g : G}, Oks A g xs ↔ Each A Ok g xs
  | [], _ => Iff.rfl
  | x :: xs, g => by simp only [Oks, Each]; rw [oks_each]

/-! ## The loop -/

/-- The view after its update, if it is kept. -/
def nextV (A : Arith) (st : GState) (c : Ctrl) (dead : Nat → Bool) (planned now : Int) (v : V) : Option V :=
  if dead v.obj then none
  else if v.ijt ≥ planned then some v
  else
    let v := { v with ctl := { v.ctl with res := v.ctl.res.update A } }
    if kept false v.ctl.res then
      let r := updateSaliency A st c now v
      match v.kind with
      | .group => some (updateVisibility A st c none r.1).1
      | .other => some r.1
      | _ => some (updateActivation A st c r.1).1
    else none

/-- Whether a view is updated: it is not skipped and it is kept. -/
def touched (A : Arith) (dead : Nat → Bool) (planned : Int) (v : V) : Bool :=
  !dead v.obj && decide (v.ijt < planned) && kept false (v.ctl.res.update A)

/-- The view's contribution to the newly salient views. -/
def newOf (A : Arith) (st : GState) (c : Ctrl) (dead : Nat → Bool) (planned now : Int) (v : V) : List (Nat × Nat) :=
  if touched A dead planned v && (updateSaliency A st c now v).2 then [(v.oid, v.obj)] else []

/-- The view's contribution to the new controllers. -/
def freshOf (A : Arith) (st : GState) (c : Ctrl) (dead : Nat → Bool) (planned : Int) (v : V) : List (Nat × Kind) :=
  if touched A dead planned v && v.kind.controlled && (updateActivation A st c v).2 then [(v.oid, v.kind)] else []

/-- What becomes of the entry in the viewing groups of the view's object. -/
def viewOf (A : Arith) (st : GState) (c : Ctrl) (dead : Nat → Bool) (planned : Int) (f : Nat → Option Bool) (v : V) :
    Nat → Option Bool :=
  if touched A dead planned v && decide (v.kind = .group) then
    setViewing f v.obj (updateVisibility A st c (f v.obj) v).2
  else f

theorem updSal_res (A : Arith) (st : GState) (c : Ctrl) (now : Int) (v : V) (r : Res) :
    (updateSaliency A st c now { v with ctl := { v.ctl with res := r } }).2 = (updateSaliency A st c now v).2 := by
  unfold updateSaliency
  dsimp only
  split
  · cases v.sync <;> rfl
  · rfl

theorem updSal_fields (A : Arith) (st : GState) (c : Ctrl) (now : Int) (v : V) :
    (updateSaliency A st c now v).1.oid = v.oid ∧ (updateSaliency A st c now v).1.obj = v.obj ∧
    (updateSaliency A st c now v).1.kind = v.kind ∧ (updateSaliency A st c now v).1.sync = v.sync ∧
    (updateSaliency A st c now v).1.cov = v.cov ∧ (updateSaliency A st c now v).1.active = v.active ∧
    (updateSaliency A st c now v).1.stopped = v.stopped ∧
    (updateSaliency A st c now v).1.ctl = { v.ctl with sln := v.ctl.sln.update A } := by
  unfold updateSaliency
  dsimp only
  split
  · cases v.sync <;> exact ⟨rfl, rfl, rfl, rfl, rfl, rfl, rfl, rfl⟩
  · exact ⟨rfl, rfl, rfl, rfl, rfl, rfl, rfl, rfl⟩

/-- The activation of a view only depends on its activation and its controller. -/
theorem updAct_snd (A : Arith) (st : GState) (c : Ctrl) (v w : V) (h : w.ctl.act = v.ctl.act) :
    (updateActivation A st c w).2 = (updateActivation A st c v).2 := by
  unfold updateActivation
  dsimp only
  rw [h]
  split_ifs <;> rfl

theorem updAct_active (A : Arith) (st : GState) (c : Ctrl) (v w : V) (h : w.ctl.act = v.ctl.act)
    (ha : w.active = v.active) :
    (updateActivation A st c w).1.active = (updateActivation A st c v).1.active := by
  unfold updateActivation
  dsimp only
  rw [h]
  split_ifs <;> first | rfl | exact ha

theorem updAct_fields (A : Arith) (st : GState) (c : Ctrl) (v : V) :
    (updateActivation A st c v).1.oid = v.oid ∧ (updateActivation A st c v).1.obj = v.obj ∧
    (updateActivation A st c v).1.kind = v.kind ∧ (updateActivation A st c v).1.sync = v.sync ∧
    (updateActivation A st c v).1.cov = v.cov ∧ (updateActivation A st c v).1.stopped = v.stopped ∧
    (updateActivation A st c v).1.ijt = v.ijt ∧
    (updateActivation A st c v).1.ctl = { v.ctl with act := v.ctl.act.update A } := by
  unfold updateActivation
  dsimp only
  split_ifs <;> exact ⟨rfl, rfl, rfl, rfl, rfl, rfl, rfl, rfl⟩

theorem updVis_fst (A : Arith) (st : GState) (c : Ctrl) (x : Option Bool) (v : V) :
    (updateVisibility A st c x v).1 = { v with ctl := { v.ctl with vis := v.ctl.vis.update A } } := by
  unfold updateVisibility
  dsimp only
  split_ifs <;> rfl

theorem updVis_snd (A : Arith) (st : GState) (c : Ctrl) (x : Option Bool) (v w : V) (h : w.ctl.vis = v.ctl.vis)
    (hc : w.cov = v.cov) : (updateVisibility A st c x w).2 = (updateVisibility A st c x v).2 := by
  unfold updateVisibility
  dsimp only
  rw [h, hc]
  split_ifs <;> rfl

theorem toList_some {α : Type _} (x : α) : (some x).toList = [x] := rfl

/-- One step of the loop. -/
theorem updateView_eq (A : Arith) (st : GState) (planned now : Int) (g : G) (v : V) :
    updateView A st planned now g v =
      { g with
        views := g.views ++ (nextV A st g.ctrl g.dead planned now v).toList
        newly := g.newly ++ newOf A st g.ctrl g.dead planned now v
        fresh := g.fresh ++ freshOf A st g.ctrl g.dead planned v
        viewing := viewOf A st g.ctrl g.dead planned g.viewing v } := by
  unfold updateView nextV newOf freshOf viewOf touched
  dsimp only
  by_cases hd : g.dead v.obj = true
  · simp [hd]
  · have hd' : g.dead v.obj = false := by simpa using hd
    rw [if_neg hd, if_neg hd]
    by_cases ht : v.ijt ≥ planned
    · have : ¬ v.ijt < planned := by omega
      simp [ht, this]
    · have ht' : v.ijt < planned := by omega
      rw [if_neg ht, if_neg ht]
      by_cases hk : kept false (v.ctl.res.update A) = true
      · rw [if_pos hk, if_pos hk]
        have e1 := updSal_res A st g.ctrl now v (v.ctl.res.update A)
        have f1 := updSal_fields A st g.ctrl now { v with ctl := { v.ctl with res := v.ctl.res.update A } }
        obtain ⟨-, -, -, -, fcov, -, -, fctl⟩ := f1
        have fact : (updateSaliency A st g.ctrl now { v with ctl := { v.ctl with res := v.ctl.res.update A } }).1.ctl.act = v.ctl.act := by rw [fctl]
        have fvis : (updateSaliency A st g.ctrl now { v with ctl := { v.ctl with res := v.ctl.res.update A } }).1.ctl.vis = v.ctl.vis := by rw [fctl]
        clear fctl
        rw [e1]
        clear e1
        dsimp only at fcov fact fvis ⊢
        generalize (updateSaliency A st g.ctrl now _).1 = w at fcov fact fvis ⊢
        have ea := updAct_snd A st g.ctrl v w fact
        have ev : ∀ x, (updateVisibility A st g.ctrl x w).2 = (updateVisibility A st g.ctrl x v).2 :=
          fun x => updVis_snd A st g.ctrl x v w fvis fcov
        simp only [hd', ht', hk, Bool.not_false, Bool.true_and, decide_true]
        cases hkind : v.kind <;>
          cases h2 : (updateSaliency A st g.ctrl now v).2 <;>
          cases h3 : (updateActivation A st g.ctrl v).2 <;>
          simp [Kind.controlled, ea, ev, h3, updVis_fst]
      · have hk' : kept false (v.ctl.res.update A) = false := by simpa using hk
        rw [if_neg hk, if_neg hk]
        simp [hk']

theorem fold_eq (A : Arith) (st : GState) (planned now : Int) : ∀ (vs : List V) (g : G),
    vs.foldl (updateView A st planned now) g =
      { g with
        views := g.views ++ vs.filterMap (nextV A st g.ctrl g.dead planned now)
        newly := g.newly ++ vs.flatMap (newOf A st g.ctrl g.dead planned now)
        fresh := g.fresh ++ vs.flatMap (freshOf A st g.ctrl g.dead planned)
        viewing := vs.foldl (viewOf A st g.ctrl g.dead planned) g.viewing }
  | [], g => by simp
  | v :: vs, g => by
    rw [List.foldl_cons, fold_eq, updateView_eq]
    have : (v :: vs).filterMap (nextV A st g.ctrl g.dead planned now) = (nextV A st g.ctrl g.dead planned now v).toList ++ vs.filterMap (nextV A st g.ctrl g.dead planned now) := by
      rw [List.filterMap_cons]
      cases nextV A st g.ctrl g.dead planned now v <;> rfl
    simp only [List.flatMap_cons, List.foldl_cons, this, List.append_assoc]

/-! ## Reduction jobs -/

/-- The pairs added by `inject_reduction_jobs`. -/
def jobsOf (g : G) (i : Nat × Nat) : List (Nat × Nat) :=
  if above g.ctrl.cAct g.ctrl.cActThr then
    g.views.flatMap fun p => if p.kind.takes && above p.ctl.act g.ctrl.actThr then take g.dead p i else []
  else []

theorem reduceJobs_eq (g : G) (i : Nat × Nat) : reduceJobs g i = { g with took := g.took ++ jobsOf g i } := by
  unfold reduceJobs jobsOf
  split
  · rfl
  · simp

theorem foldJobs_eq : ∀ (is : List (Nat × Nat)) (g : G),
    is.foldl reduceJobs g = { g with took := g.took ++ is.flatMap (jobsOf g) }
  | [], g => by simp
  | i :: is, g => by
    rw [List.foldl_cons, foldJobs_eq, reduceJobs_eq]
    have : ∀ j, jobsOf { g with took := g.took ++ jobsOf g i } j = jobsOf g j := fun _ => rfl
    simp only [List.flatMap_cons, List.append_assoc]
    rw [show jobsOf { g with took := g.took ++ jobsOf g i } = jobsOf g from funext this]

/-- The state after an update. -/
structure Updated (A : Arith) (o : Order) (t n : Int) (g g' : G) : Prop where
  ctrl : g'.ctrl = g.ctrl.updated A
  views : g'.views = g.views.filterMap (nextV A (gstate A o g.ctrl) (g.ctrl.updated A) g.dead t n)
  dead : g'.dead = g.dead
  newly : g'.newly = g.views.flatMap (newOf A (gstate A o g.ctrl) (g.ctrl.updated A) g.dead t n)
  viewing : g'.viewing = g.views.foldl (viewOf A (gstate A o g.ctrl) (g.ctrl.updated A) g.dead t) g.viewing
  took : g'.took = g.took ++ g'.newly.flatMap (jobsOf g')
  fresh : (gstate A o g.ctrl).isAct = true → (gstate A o g.ctrl).isSln = true → g'.fresh = []
  fresh' : ¬ ((gstate A o g.ctrl).isAct = true ∧ (gstate A o g.ctrl).isSln = true) → g'.fresh = g.fresh ++ g.views.flatMap (freshOf A (gstate A o g.ctrl) (g.ctrl.updated A) g.dead t)
  signals : (gstate A o g.ctrl).isAct = true → (gstate A o g.ctrl).isSln = true → g'.signals = g.signals ++ (g.fresh ++ g.views.flatMap (freshOf A (gstate A o g.ctrl) (g.ctrl.updated A) g.dead t)).flatMap (fun x => signalOf x.2 x.1)
  signals' : ¬ ((gstate A o g.ctrl).isAct = true ∧ (gstate A o g.ctrl).isSln = true) → g'.signals = g.signals

theorem update_updated (A : Arith) (o : Order) (t n : Int) (g : G) : Updated A o t n g (update A o t n g) := by
  unfold update
  dsimp only
  rw [fold_eq, foldJobs_eq]
  by_cases h : ((gstate A o g.ctrl).isAct && (gstate A o g.ctrl).isSln) = true
  · rw [if_pos h]
    simp only [Bool.and_eq_true] at h
    constructor <;> first | rfl | (intro h'; exact absurd h h') | (intro _ _; rfl)
  · rw [if_neg h]
    simp only [Bool.and_eq_true] at h
    constructor <;> first | rfl | (intro h1 h2; exact absurd ⟨h1, h2⟩ h) | (intro _; rfl)

/-! ## Views after an update -/

/-- What is left of a view that is kept. -/
structure Kept (A : Arith) (st : GState) (c : Ctrl) (dead : Nat → Bool) (t : Int) (v w : V) : Prop where
  live : dead v.obj = false
  oid : w.oid = v.oid
  obj : w.obj = v.obj
  kind : w.kind = v.kind
  sync : w.sync = v.sync
  cov : w.cov = v.cov
  stopped : w.stopped = v.stopped
  skipped : t ≤ v.ijt → w = v
  touched : v.ijt < t → Cycle.touched A dead t v = true ∧ w.ctl.sln = v.ctl.sln.update A
  act : v.ijt < t → v.kind.controlled = true → w.ctl.act = v.ctl.act.update A ∧ w.active = (updateActivation A st c v).1.active
  vis : v.ijt < t → v.kind = .group → w.ctl.vis = v.ctl.vis.update A

theorem nextV_kept {A : Arith} {st : GState} {c : Ctrl} {dead : Nat → Bool} {t n : Int} {v w : V}
    (h : nextV A st c dead t n v = some w) : Kept A st c dead t v w := by
  unfold nextV at h
  dsimp only at h
  split_ifs at h with hd ht hk
  · cases h
    exact { live := by simpa using hd, oid := rfl, obj := rfl, kind := rfl, sync := rfl, cov := rfl, stopped := rfl, skipped := fun _ => rfl, touched := fun h => by omega, act := fun h => by omega, vis := fun h => by omega }
  · have hd' : dead v.obj = false := by simpa using hd
    have htt : Cycle.touched A dead t v = true := by
      have : v.ijt < t := by omega
      simp [Cycle.touched, hd', this, hk]
    have f1 := updSal_fields A st c n { v with ctl := { v.ctl with res := v.ctl.res.update A } }
    dsimp only at f1 h
    generalize (updateSaliency A st c n _).1 = u at f1 h
    obtain ⟨f1, f2, f3, f4, f5, f6, f7, f8⟩ := f1
    have key : v.kind.controlled = true → w = (updateActivation A st c u).1 → Kept A st c dead t v w := by
      intro hc e
      obtain ⟨a1, a2, a3, a4, a5, a6, a7, a8⟩ := updAct_fields A st c u
      subst e
      exact { live := hd', oid := by rw [a1, f1], obj := by rw [a2, f2], kind := by rw [a3, f3], sync := by rw [a4, f4], cov := by rw [a5, f5], stopped := by rw [a6, f7], skipped := fun h => absurd h ht, touched := fun _ => ⟨htt, by rw [a8, f8]⟩, act := fun _ _ => ⟨by rw [a8, f8], updAct_active A st c v u (by rw [f8]) f6⟩, vis := fun _ hg => by rw [hg] at hc; cases hc }
    split at h
    · rename_i hkind
      rw [updVis_fst] at h
      cases h
      exact { live := hd', oid := f1, obj := f2, kind := f3, sync := f4, cov := f5, stopped := f7, skipped := fun h => absurd h ht, touched := fun _ => ⟨htt, by rw [f8]⟩, act := fun _ hg => by (rw [hkind] at hg; cases hg), vis := fun _ _ => by rw [f8] }
    · rename_i hkind
      cases h
      exact { live := hd', oid := f1, obj := f2, kind := f3, sync := f4, cov := f5, stopped := f7, skipped := fun h => absurd h ht, touched := fun _ => ⟨htt, by rw [f8]⟩, act := fun _ hg => by (rw [hkind] at hg; cases hg), vis := fun _ hg => by (rw [hkind] at hg; cases hg) }
    · rename_i h1 h2
      cases h
      refine key ?_ rfl
      cases hk : v.kind <;> first | rfl | exact absurd hk h1 | exact absurd hk h2

/-- A view that is touched is kept. -/
theorem nextV_touched {A : Arith} {st : GState} {c : Ctrl} {dead : Nat → Bool} {t n : Int} {v : V}
    (h : touched A dead t v = true) : ∃ w, nextV A st c dead t n v = some w := by
  unfold touched at h
  simp only [Bool.and_eq_true, Bool.not_eq_true', decide_eq_true_eq] at h
  obtain ⟨⟨hd, ht⟩, hk⟩ := h
  unfold nextV
  dsimp only
  rw [if_neg (by simp [hd]), if_neg (by omega), if_pos hk]
  cases v.kind <;> exact ⟨_, rfl⟩

theorem mem_updated {A : Arith} {o : Order} {t n : Int} {g g' : G} (h : Updated A o t n g g') {w : V}
    (hw : w ∈ g'.views) : ∃ v ∈ g.views, Kept A (gstate A o g.ctrl) (g.ctrl.updated A) g.dead t v w := by
  rw [h.views, List.mem_filterMap] at hw
  obtain ⟨v, hv, e⟩ := hw
  exact ⟨v, hv, nextV_kept e⟩

/-! ## Names of views -/

/-- Views have OIDs and objects of their own. -/
structure Wf (g : G) : Prop where
  oids : (g.views.map (·.oid)).Nodup
  objs : (g.views.map (·.obj)).Nodup

theorem filterMap_sublist {β : Type _} (f : V → Option V) (k : V → β) (h : ∀ v w, f v = some w → k w = k v) :
    ∀ vs : List V, ((vs.filterMap f).map k).Sublist (vs.map k)
  | [] => by simp
  | v :: vs => by
    rw [List.filterMap_cons, List.map_cons]
    cases e : f v with
    | none => exact (filterMap_sublist f k h vs).cons _
    | some w =>
      simp only [List.map_cons]
      rw [h v w e]
      exact (filterMap_sublist f k h vs).cons_cons _

theorem nodup_snoc {β : Type _} (k : V → β) (vs : List V) (v : V) (hn : (vs.map k).Nodup) (h : ∀ u ∈ vs, k u ≠ k v) :
    ((vs ++ [v]).map k).Nodup := by
  rw [List.map_append, List.nodup_append]
  refine ⟨hn, by simp, ?_⟩
  intro a ha b hb
  simp only [List.map_cons, List.map_nil, List.mem_singleton] at hb
  obtain ⟨u, hu, rfl⟩ := List.mem_map.1 ha
  rw [hb]
  exact h u hu

theorem onView_map {β : Type _} (k : V → β) (g : G) (oid : Nat) (f : V → V) (h : ∀ v, k (f v) = k v) :
    (onView g oid f).views.map k = g.views.map k := by
  unfold onView
  simp only [List.map_map]
  refine List.map_congr_left fun v _ => ?_
  simp only [Function.comp]
  split
  · exact h v
  · rfl

theorem reduceJobs_views (g : G) (i : Nat × Nat) : (reduceJobs g i).views = g.views := by rw [reduceJobs_eq]

theorem wf_of_maps {g g' : G} (h : Wf g) (h1 : g'.views.map (·.oid) = g.views.map (·.oid))
    (h2 : g'.views.map (·.obj) = g.views.map (·.obj)) : Wf g' := ⟨h1 ▸ h.oids, h2 ▸ h.objs⟩

theorem wf_snoc {g g' : G} {v w : V} (h : Wf g) (hv : ∀ u ∈ g.views, u.oid ≠ v.oid ∧ u.obj ≠ v.obj)
    (e : g'.views = g.views ++ [w]) (e1 : w.oid = v.oid) (e2 : w.obj = v.obj) : Wf g' := by
  constructor
  · rw [e]
    exact nodup_snoc (·.oid) _ _ h.oids fun u hu => by (show u.oid ≠ w.oid; rw [e1]; exact (hv u hu).1)
  · rw [e]
    exact nodup_snoc (·.obj) _ _ h.objs fun u hu => by (show u.obj ≠ w.obj; rw [e2]; exact (hv u hu).2)

/-- The views after an injection. -/
theorem inject_views (now : Int) (g : G) (v : V) : (inject now g v).views = g.views ++ [{ v with ijt := now, active := v.kind.controlled && isActivePgm g.ctrl v }] := by
  unfold inject
  dsimp only
  split
  · rw [reduceJobs_views]
  · rfl

theorem injectGroup_views (g : G) (v : V) : (injectGroup g v).views = g.views ++ [v] := by
  unfold injectGroup
  dsimp only
  split_ifs <;> first | rfl | rw [reduceJobs_views]

theorem again_fields (A : Arith) (now : Int) (v u : V) :
    (again A now v u).oid = u.oid ∧ (again A now v u).obj = u.obj ∧ (again A now v u).kind = u.kind ∧
    (again A now v u).cov = u.cov ∧ (again A now v u).active = u.active ∧ (again A now v u).stopped = u.stopped ∧
    (again A now v u).ctl.act.val = u.ctl.act.val ∧ (again A now v u).ctl.vis.val = u.ctl.vis.val := by
  refine ⟨rfl, rfl, rfl, rfl, rfl, rfl, ?_⟩
  unfold again
  dsimp only
  cases v.ctl.res.val <;> cases u.kind <;> exact ⟨rfl, rfl⟩

theorem injectExisting_eq (A : Arith) (now : Int) (g : G) (old v : V) :
    ∃ l, (l = [] ∨ l = [(v.oid, v.obj)] ∧ (g.ctrl.again A).on = true) ∧
      injectExisting A now g old v =
        let g' := { onView g old.oid (again A now v) with ctrl := g.ctrl.again A, newly := g.newly ++ l }
        { g' with took := g'.took ++ l.flatMap (jobsOf g') } := by
  unfold injectExisting
  dsimp only
  split
  · rename_i h
    refine ⟨[(v.oid, v.obj)], Or.inr ⟨rfl, ?_⟩, ?_⟩
    · simp only [Bool.and_eq_true] at h
      simp only [Ctrl.on, Ctrl.again, Bool.and_eq_true]
      exact ⟨h.1.2, h.1.1⟩
    · rw [reduceJobs_eq]
      simp only [List.flatMap_cons, List.flatMap_nil, List.append_nil]
      rfl
  · refine ⟨[], Or.inl rfl, ?_⟩
    simp only [List.flatMap_nil, List.append_nil]
    rfl

theorem start_views (now : Int) (g : G) : (start now g).views = g.views.map fun v => { v with ijt := now } := by
  unfold start
  dsimp only
  split_ifs <;> first | rfl | rw [foldJobs_eq]

theorem start_ctrl (now : Int) (g : G) : (start now g).ctrl = g.ctrl := by
  unfold start
  dsimp only
  split_ifs <;> first | rfl | rw [foldJobs_eq]

theorem wf_step {A : Arith} {g : G} {op : Op} (h : Wf g) (hok : Ok g op) : Wf (step A g op) := by
  cases op with
  | load v =>
    show Wf (load g v)
    unfold load
    have hn := hok.1
    have same : Wf { g with views := g.views ++ [v] } := wf_snoc h hn rfl rfl rfl
    have act : Wf { g with views := g.views ++ [{ v with active := isActivePgm g.ctrl v }] } := wf_snoc h hn rfl rfl rfl
    split
    · split
      · exact ⟨same.oids, same.objs⟩
      · exact same
    · exact act
    · exact act
    · exact act
    · exact same
    · exact h
  | start n =>
    refine wf_of_maps h ?_ ?_ <;> (show List.map _ (start n g).views = _; rw [start_views, List.map_map]; rfl)
  | inject n v => exact wf_snoc h hok.1 (inject_views n g v) rfl rfl
  | injectGroup v => exact wf_snoc h hok.1 (injectGroup_views g v) rfl rfl
  | injectExisting n old v =>
    obtain ⟨l, -, e⟩ := injectExisting_eq A n g old v
    show Wf (injectExisting A n g old v)
    rw [e]
    exact wf_of_maps h (onView_map _ _ _ _ fun _ => rfl) (onView_map _ _ _ _ fun _ => rfl)
  | modGroup m x => exact ⟨h.oids, h.objs⟩
  | setGroup m x => exact ⟨h.oids, h.objs⟩
  | modView oid m x => exact wf_of_maps h (onView_map _ _ _ _ fun _ => rfl) (onView_map _ _ _ _ fun _ => rfl)
  | setView oid m x => exact wf_of_maps h (onView_map _ _ _ _ fun _ => rfl) (onView_map _ _ _ _ fun _ => rfl)
  | invalidate obj => exact ⟨h.oids, h.objs⟩
  | stop oid => exact wf_of_maps h (onView_map _ _ _ _ fun _ => rfl) (onView_map _ _ _ _ fun _ => rfl)
  | update o t n =>
    have u := update_updated A o t n g
    constructor
    · show ((update A o t n g).views.map (·.oid)).Nodup
      rw [u.views]
      exact (filterMap_sublist _ _ (fun v w e => (nextV_kept e).oid) _).nodup h.oids
    · show ((update A o t n g).views.map (·.obj)).Nodup
      rw [u.views]
      exact (filterMap_sublist _ _ (fun v w e => (nextV_kept e).obj) _).nodup h.objs

theorem wf_run {A : Arith} : ∀ {ops : List Op} {g : G}, Wf g → Oks A g ops → Wf (run A g ops)
  | [], _, h, _ => h
  | _ :: _, _, h, hk => by
    rw [run_cons]
    exact wf_run (wf_step h hk.1) hk.2

theorem wf_begin (b : Begin) : Wf b.group := ⟨List.nodup_nil, List.nodup_nil⟩

theorem eq_of_key {β : Type _} {k : V → β} : ∀ {vs : List V}, (vs.map k).Nodup → ∀ {u v : V}, u ∈ vs → v ∈ vs →
    k u = k v → u = v
  | [], _, _, _, h, _, _ => absurd h List.not_mem_nil
  | x :: xs, hn, u, v, hu, hv, e => by
    rw [List.map_cons, List.nodup_cons] at hn
    rcases List.mem_cons.1 hu with h1 | h1 <;> rcases List.mem_cons.1 hv with h2 | h2
    · rw [h1, h2]
    · rw [h1] at e
      exact absurd (List.mem_map.2 ⟨v, h2, e.symm⟩) hn.1
    · rw [h2] at e
      exact absurd (List.mem_map.2 ⟨u, h1, e⟩) hn.1
    · exact eq_of_key hn.2 h1 h2 e

end Verif.Cycle
