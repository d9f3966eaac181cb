import Verif.Cycle.Lemmas
/-!
# Invariants of histories of a group
-/
namespace Verif.Cycle
open Verif.F32 Verif.ViewCtl

theorem above_eq (x y : Chan) : above x y = true ↔ y.val < x.val := by
  unfold above; simp

theorem above_congr {x y x' y' : Chan} (h : y.val < x.val ↔ y'.val < x'.val) : above x y = above x' y' := by
  unfold above; exact decide_eq_decide.2 h

theorem on_iff (g : G) : g.ctrl.on = true ↔ On g := by
  unfold Ctrl.on On value Ctrl.get
  rw [Bool.and_eq_true, above_eq, above_eq]
  exact And.comm

theorem on_congr {g g' : G} (h : On g ↔ On g') : g.ctrl.on = g'.ctrl.on := by
  rw [Bool.eq_iff_iff, on_iff, on_iff]; exact h

theorem isActive_iff (g : G) (v : V) : isActivePgm g.ctrl v = true ↔ Active g v := by
  unfold isActivePgm Active
  rw [Bool.and_eq_true, above_eq, on_iff]
  rfl

/-- An update that sees the old values. -/
theorem sees_was {A : Arith} {g : G} {o : Order} (h : Sees A g o) :
    ((gstate A o g.ctrl).wasAct && (gstate A o g.ctrl).wasSln) = g.ctrl.on := by
  unfold gstate Ctrl.on
  dsimp only
  rw [Bool.and_comm]
  congr 1
  · cases hl : o.lateSln with
    | false => rfl
    | true => exact above_congr (h.2 hl).symm
  · cases hl : o.lateAct with
    | false => rfl
    | true => exact above_congr (h.1 hl).symm

theorem is_on {A : Arith} {g : G} {o : Order} :
    ((gstate A o g.ctrl).isAct && (gstate A o g.ctrl).isSln) = (g.ctrl.updated A).on := by
  unfold gstate Ctrl.on
  rw [Bool.and_comm]
  rfl

/-! ## C97 -/

/-- The active controllers are those of the active views. -/
def ActInv (g : G) : Prop := ∀ v ∈ g.views, v.kind.controlled = true → v.active = isActivePgm g.ctrl v

/-- What `_update_activation` leaves, by the states of the group and of the view. -/
theorem updAct_active_eq (A : Arith) (st : GState) (c : Ctrl) (v : V) :
    (updateActivation A st c v).1.active =
      (if (st.wasAct && st.wasSln) = true then
        if (st.isAct && st.isSln) = true then
          (if above v.ctl.act c.actThr then (above (v.ctl.act.update A) c.actThr && v.active) else (above (v.ctl.act.update A) c.actThr || v.active))
        else false
      else if (st.isAct && st.isSln) = true then (above (v.ctl.act.update A) c.actThr || v.active) else v.active) := by
  unfold updateActivation
  dsimp only
  cases st.wasAct <;> cases st.wasSln <;> cases st.isAct <;> cases st.isSln <;> cases above v.ctl.act c.actThr <;>
    cases above (v.ctl.act.update A) c.actThr <;> simp

theorem updAct_fresh_eq (A : Arith) (st : GState) (c : Ctrl) (v : V) :
    (updateActivation A st c v).2 =
      (st.isAct && st.isSln && above (v.ctl.act.update A) c.actThr &&
        (!(st.wasAct && st.wasSln) || !above v.ctl.act c.actThr)) := by
  unfold updateActivation
  dsimp only
  cases st.wasAct <;> cases st.wasSln <;> cases st.isAct <;> cases st.isSln <;> cases above v.ctl.act c.actThr <;>
    cases above (v.ctl.act.update A) c.actThr <;> simp

theorem value_update (A : Arith) (o : Order) (t n : Int) (g : G) (m : Member) :
    value (update A o t n g) m = ((g.ctrl.updated A).get m).val := by
  unfold value; rw [(update_updated A o t n g).ctrl]

theorem on_update (A : Arith) (o : Order) (t n : Int) (g : G) :
    On (update A o t n g) ↔ (g.ctrl.updated A).on = true := by
  rw [← on_iff, (update_updated A o t n g).ctrl]

theorem act_update {A : Arith} {o : Order} {t n : Int} {g : G} (h : ActInv g) (hc : Calm A g (.update o t n)) :
    ActInv (update A o t n g) := by
  intro w hw hk
  have u := update_updated A o t n g
  obtain ⟨v, hv, k⟩ := mem_updated u hw
  rw [k.kind] at hk
  obtain ⟨hs, hc⟩ := hc
  obtain ⟨hthr, hskip⟩ := hc v hv hk k.live
  have ha := h v hv hk
  rw [u.ctrl]
  have eabove : above v.ctl.act (g.ctrl.updated A).actThr = above v.ctl.act g.ctrl.actThr := by
    refine (above_congr ?_).symm
    rw [value_update] at hthr
    exact hthr
  by_cases ht : v.ijt < t
  · obtain ⟨e1, e2⟩ := k.act ht hk
    rw [e2, updAct_active_eq, sees_was hs, is_on, ha]
    unfold isActivePgm
    rw [e1, eabove]
    cases g.ctrl.on <;> cases (g.ctrl.updated A).on <;> cases above v.ctl.act g.ctrl.actThr <;>
      cases above (v.ctl.act.update A) (g.ctrl.updated A).actThr <;> simp
  · have ht' : t ≤ v.ijt := by omega
    rw [k.skipped ht', ha]
    unfold isActivePgm
    rw [eabove]
    have := hskip ht'
    rw [on_update, ← on_iff, ← Bool.eq_iff_iff] at this
    rw [this]

theorem mem_onView {g : G} {oid : Nat} {f : V → V} {v : V} (h : v ∈ (onView g oid f).views) :
    ∃ u ∈ g.views, v = f u ∨ v = u := by
  unfold onView at h
  obtain ⟨u, hu, e⟩ := List.mem_map.1 h
  refine ⟨u, hu, ?_⟩
  split at e
  · exact Or.inl e.symm
  · exact Or.inr e.symm

theorem isActive_congr {c : Ctrl} {u v : V} (h : u.ctl.act.val = v.ctl.act.val) : isActivePgm c u = isActivePgm c v := by
  unfold isActivePgm above; rw [h]

theorem act_onView {g : G} {oid : Nat} {f : V → V} (h : ActInv g)
    (hf : ∀ v, (f v).kind = v.kind ∧ (f v).active = v.active ∧ (f v).ctl.act.val = v.ctl.act.val) :
    ActInv (onView g oid f) := by
  intro v hv hk
  obtain ⟨u, hu, e | e⟩ := mem_onView hv
  · obtain ⟨h1, h2, h3⟩ := hf u
    subst e
    rw [h1] at hk
    rw [h2, h u hu hk]
    exact (isActive_congr h3).symm
  · subst e
    exact h v hu hk

theorem mod_val (A : Arith) (c : View) (m : ViewCtl.Member) (x : Rat) :
    (c.mod A m x).act.val = c.act.val ∧ (c.mod A m x).vis.val = c.vis.val ∧ (c.mod A m x).sln.val = c.sln.val := by
  cases m <;> exact ⟨rfl, rfl, rfl⟩

theorem set_val (A : Arith) (c : View) (m : ViewCtl.Member) (x : Rat) :
    (c.set A m x).act.val = c.act.val ∧ (c.set A m x).vis.val = c.vis.val ∧ (c.set A m x).sln.val = c.sln.val := by
  cases m <;> exact ⟨rfl, rfl, rfl⟩

/-- Requests do not change the values. -/
theorem modGroup_val (A : Arith) (g : G) (m k : Member) (x : Rat) : value (modGroup A g m x) k = value g k := by
  cases m <;> cases k <;> rfl

theorem setGroup_val (A : Arith) (g : G) (m k : Member) (x : Rat) : value (setGroup A g m x) k = value g k := by
  cases m <;> cases k <;> rfl

theorem act_ctrl {g g' : G} (h : ActInv g) (hv : g'.views = g.views) (hc : ∀ k, value g' k = value g k) : ActInv g' := by
  intro v hv' hk
  rw [hv] at hv'
  rw [h v hv' hk, Bool.eq_iff_iff, isActive_iff, isActive_iff]
  unfold Active On
  rw [hc, hc, hc, hc, hc]

theorem inject_ctrl (n : Int) (g : G) (v : V) : (inject n g v).ctrl = g.ctrl := by
  unfold inject
  dsimp only
  split
  · rw [reduceJobs_eq]
  · rfl

theorem injectGroup_ctrl (g : G) (v : V) : (injectGroup g v).ctrl = g.ctrl := by
  unfold injectGroup
  dsimp only
  split_ifs <;> first | rfl | rw [reduceJobs_eq]

theorem act_snoc {g g' : G} {w : V} (h : ActInv g) (hv : g'.views = g.views ++ [w]) (hc : g'.ctrl = g.ctrl)
    (hw : w.kind.controlled = true → w.active = isActivePgm g.ctrl w) : ActInv g' := by
  intro v hv' hk
  rw [hv, List.mem_append, List.mem_singleton] at hv'
  rw [hc]
  rcases hv' with hv' | rfl
  · exact h v hv' hk
  · exact hw hk

theorem act_step {A : Arith} {g : G} {op : Op} (h : ActInv g) (hok : Ok g op) (hc : Calm A g op) :
    ActInv (step A g op) := by
  cases op with
  | load v =>
    show ActInv (load g v)
    unfold load
    have hact : ActInv { g with views := g.views ++ [{ v with active := isActivePgm g.ctrl v }] } :=
      act_snoc h rfl rfl fun _ => rfl
    split
    · rename_i hk
      have hn : v.kind.controlled = true → v.active = isActivePgm g.ctrl v := by rw [hk]; intro h; cases h
      split
      · exact act_snoc (w := v) h rfl rfl hn
      · exact act_snoc (w := v) h rfl rfl hn
    · exact hact
    · exact hact
    · exact hact
    · rename_i hk
      exact act_snoc (w := v) h rfl rfl (by rw [hk]; intro h; cases h)
    · exact h
  | start n =>
    intro v hv hk
    have hv : v ∈ (start n g).views := hv
    show v.active = isActivePgm (start n g).ctrl v
    rw [start_ctrl]
    rw [start_views] at hv
    obtain ⟨u, hu, rfl⟩ := List.mem_map.1 hv
    exact h u hu hk
  | inject n v =>
    refine act_snoc h (inject_views n g v) (inject_ctrl n g v) ?_
    intro hk
    have hk : v.kind.controlled = true := hk
    show (v.kind.controlled && isActivePgm g.ctrl v) = _
    rw [hk]
    rfl
  | injectGroup v =>
    refine act_snoc h (injectGroup_views g v) (injectGroup_ctrl g v) ?_
    rw [hok.2]
    intro h; cases h
  | injectExisting n old v =>
    have hon := on_congr hc
    obtain ⟨l, -, e⟩ := injectExisting_eq A n g old v
    show ActInv (injectExisting A n g old v)
    rw [e] at hon ⊢
    have hon : g.ctrl.on = (g.ctrl.again A).on := hon
    have h1 : ActInv (onView g old.oid (again A n v)) :=
      act_onView h fun u => ⟨rfl, rfl, (again_fields A n v u).2.2.2.2.2.2.1⟩
    intro w hw hk
    have := h1 w hw hk
    rw [this]
    show (above w.ctl.act g.ctrl.actThr && g.ctrl.on) = (above w.ctl.act g.ctrl.actThr && (g.ctrl.again A).on)
    rw [hon]
  | modGroup m x => exact act_ctrl h rfl fun k => modGroup_val A g m k x
  | setGroup m x => exact act_ctrl h rfl fun k => setGroup_val A g m k x
  | modView oid m x => exact act_onView h fun v => ⟨rfl, rfl, (mod_val A v.ctl m x).1⟩
  | setView oid m x => exact act_onView h fun v => ⟨rfl, rfl, (set_val A v.ctl m x).1⟩
  | invalidate obj => exact h
  | stop oid => exact act_onView h fun v => ⟨rfl, rfl, rfl⟩
  | update o t n => exact act_update h hc

theorem act_run {A : Arith} : ∀ {ops : List Op} {g : G}, ActInv g → Oks A g ops → Each A (Calm A) g ops →
    ActInv (run A g ops)
  | [], _, h, _, _ => h
  | _ :: _, _, h, hk, hc => by
    rw [run_cons]
    exact act_run (act_step h hk.1 hc.1) hk.2 hc.2

theorem act_begin (b : Begin) : ActInv b.group := fun _ h => absurd h List.not_mem_nil

/-! ## C98 -/

/-- The viewing groups are right. -/
def VisInv (g : G) : Prop := ∀ obj, g.dead obj = false →
  ∀ c, g.viewing obj = some c ↔ ∃ v ∈ g.views, v.kind = .group ∧ v.obj = obj ∧ Visible g v ∧ v.cov = c

theorem visible_iff (g : G) (v : V) : Visible g v ↔ (above v.ctl.vis g.ctrl.visThr && g.ctrl.on) = true := by
  rw [Bool.and_eq_true, above_eq, on_iff]
  rfl

/-- What `_update_visibility` leaves. -/
theorem updVis_snd_eq (A : Arith) (st : GState) (c : Ctrl) (x : Option Bool) (v : V) :
    (updateVisibility A st c x v).2 =
      (if (st.isAct && st.isSln) = true then
        if above (v.ctl.vis.update A) c.visThr then some v.cov
        else if (st.wasAct && st.wasSln) = true then (if above v.ctl.vis c.visThr then none else x) else x
      else if (st.wasAct && st.wasSln) = true then none else x) := by
  unfold updateVisibility
  dsimp only
  cases st.wasAct <;> cases st.wasSln <;> cases st.isAct <;> cases st.isSln <;> cases above v.ctl.vis c.visThr <;>
    cases above (v.ctl.vis.update A) c.visThr <;> simp

/-- The entry of an object after the loop over views with distinct objects. -/
theorem fold_view (A : Arith) (st : GState) (c : Ctrl) (dead : Nat → Bool) (t : Int) : ∀ (vs : List V) (f : Nat → Option Bool) (obj : Nat),
    (vs.map (·.obj)).Nodup →
    ((∀ v ∈ vs, v.kind = .group → touched A dead t v = true → v.obj ≠ obj) → vs.foldl (viewOf A st c dead t) f obj = f obj) ∧
    (∀ v ∈ vs, v.kind = .group → touched A dead t v = true → v.obj = obj →
      vs.foldl (viewOf A st c dead t) f obj = (updateVisibility A st c (f obj) v).2)
  | [], f, obj, _ => ⟨fun _ => rfl, fun v hv => absurd hv List.not_mem_nil⟩
  | u :: us, f, obj, hn => by
    rw [List.map_cons, List.nodup_cons] at hn
    obtain ⟨hu, hn⟩ := hn
    obtain ⟨i1, i2⟩ := fold_view A st c dead t us (viewOf A st c dead t f u) obj hn
    rw [List.foldl_cons]
    have other : u.obj ≠ obj ∨ ¬ (u.kind = .group ∧ touched A dead t u = true) → viewOf A st c dead t f u obj = f obj := by
      intro h
      unfold viewOf
      split
      · rename_i hh
        simp only [Bool.and_eq_true, decide_eq_true_eq] at hh
        rcases h with h | h
        · unfold setViewing; rw [if_neg (Ne.symm h)]
        · exact absurd ⟨hh.2, hh.1⟩ h
      · rfl
    constructor
    · intro h
      rw [i1 fun v hv => h v (List.mem_cons_of_mem _ hv)]
      refine other ?_
      by_cases hk : u.kind = .group ∧ touched A dead t u = true
      · exact Or.inl (h u List.mem_cons_self hk.1 hk.2)
      · exact Or.inr hk
    · intro v hv hk ht ho
      rcases List.mem_cons.1 hv with rfl | hv
      · rw [i1]
        · unfold viewOf
          rw [if_pos (by simp [ht, hk]), ho]
          unfold setViewing
          rw [if_pos rfl]
        · intro w hw _ _ e
          exact hu (List.mem_map.2 ⟨w, hw, by rw [e, ho]⟩)
      · rw [i2 v hv hk ht ho, other]
        refine Or.inl fun e => hu (List.mem_map.2 ⟨v, hv, ?_⟩)
        rw [e, ho]

theorem updVis_on {A : Arith} {g : G} {o : Order} (hs : Sees A g o) (x : Option Bool) (v : V) :
    (updateVisibility A (gstate A o g.ctrl) (g.ctrl.updated A) x v).2 =
      (if (g.ctrl.updated A).on = true then
        if above (v.ctl.vis.update A) (g.ctrl.updated A).visThr then some v.cov
        else if g.ctrl.on = true then (if above v.ctl.vis (g.ctrl.updated A).visThr then none else x) else x
      else if g.ctrl.on = true then none else x) := by
  rw [updVis_snd_eq, sees_was hs, is_on]

theorem vis_update {A : Arith} {o : Order} {t n : Int} {g : G} (hw : Wf g) (h : VisInv g)
    (hc : VCalm A g (.update o t n)) : VisInv (update A o t n g) := by
  intro obj hd c
  have u := update_updated A o t n g
  rw [u.dead] at hd
  obtain ⟨hs, hc⟩ := hc
  rw [u.viewing]
  obtain ⟨f1, f2⟩ := fold_view A (gstate A o g.ctrl) (g.ctrl.updated A) g.dead t g.views g.viewing obj hw.objs
  have hvis : ∀ w : V, Visible (update A o t n g) w ↔ (above w.ctl.vis (g.ctrl.updated A).visThr && (g.ctrl.updated A).on) = true := by
    intro w; rw [visible_iff, u.ctrl]
  have old := h obj hd
  by_cases hex : ∃ v ∈ g.views, v.kind = .group ∧ v.obj = obj
  · obtain ⟨v, hv, hk, ho⟩ := hex
    have hd' : g.dead v.obj = false := by rw [ho]; exact hd
    obtain ⟨hthr, hskip, hdel⟩ := hc v hv hk hd'
    have eabove : above v.ctl.vis (g.ctrl.updated A).visThr = above v.ctl.vis g.ctrl.visThr := by
      refine (above_congr ?_).symm
      rw [value_update] at hthr
      exact hthr
    -- the old entry
    have hold : g.viewing obj = if above v.ctl.vis g.ctrl.visThr && g.ctrl.on then some v.cov else none := by
      have hiff : ∀ c, g.viewing obj = some c ↔ Visible g v ∧ v.cov = c := by
        intro c
        rw [old c]
        constructor
        · rintro ⟨w, hw', hwk, hwo, hwv⟩
          have : w = v := eq_of_key hw.objs hw' hv (by rw [hwo, ho])
          subst this
          exact hwv
        · intro hh; exact ⟨v, hv, hk, ho, hh⟩
      split
      · rename_i hh
        exact (hiff _).2 ⟨(visible_iff g v).2 hh, rfl⟩
      · rename_i hh
        cases e : g.viewing obj with
        | none => rfl
        | some c => exact absurd ((visible_iff g v).1 ((hiff c).1 e).1) hh
    by_cases ht : touched A g.dead t v = true
    · have htt : v.ijt < t := by
        unfold touched at ht
        simp only [Bool.and_eq_true, decide_eq_true_eq] at ht
        exact ht.1.2
      obtain ⟨w, hwn⟩ := nextV_touched (st := gstate A o g.ctrl) (c := g.ctrl.updated A) (n := n) ht
      have k := nextV_kept hwn
      have hwm : w ∈ (update A o t n g).views := by
        rw [u.views, List.mem_filterMap]; exact ⟨v, hv, hwn⟩
      have hwv := k.vis htt hk
      rw [f2 v hv hk ht ho, updVis_on hs, hold, eabove]
      have rhs : (∃ w ∈ (update A o t n g).views, w.kind = .group ∧ w.obj = obj ∧ Visible (update A o t n g) w ∧ w.cov = c) ↔
          (above (v.ctl.vis.update A) (g.ctrl.updated A).visThr && (g.ctrl.updated A).on) = true ∧ v.cov = c := by
        constructor
        · rintro ⟨w', hw', -, hwo, hvv, hcov⟩
          obtain ⟨v', hv', k'⟩ := mem_updated u hw'
          have : v' = v := eq_of_key hw.objs hv' hv (by rw [← k'.obj, hwo, ho])
          subst this
          rw [hvis, k'.vis htt hk] at hvv
          exact ⟨hvv, by rw [← k'.cov]; exact hcov⟩
        · rintro ⟨hvv, hcov⟩
          exact ⟨w, hwm, by rw [k.kind]; exact hk, by rw [k.obj]; exact ho, by rw [hvis, hwv]; exact hvv, by rw [k.cov]; exact hcov⟩
      rw [rhs]
      cases g.ctrl.on <;> cases (g.ctrl.updated A).on <;> cases above v.ctl.vis g.ctrl.visThr <;>
        cases above (v.ctl.vis.update A) (g.ctrl.updated A).visThr <;> simp
    · rw [f1]
      · by_cases hsk : t ≤ v.ijt
        · -- skipped
          have hon := hskip hsk
          rw [on_update, ← on_iff, ← Bool.eq_iff_iff] at hon
          have hn : nextV A (gstate A o g.ctrl) (g.ctrl.updated A) g.dead t n v = some v := by
            unfold nextV
            rw [if_neg (by simp [hd']), if_pos hsk]
          have hwm : v ∈ (update A o t n g).views := by
            rw [u.views, List.mem_filterMap]; exact ⟨v, hv, hn⟩
          rw [hold]
          constructor
          · intro e
            split at e
            · rename_i hh
              cases e
              exact ⟨v, hwm, hk, ho, by rw [hvis, eabove, ← hon]; exact hh, rfl⟩
            · cases e
          · rintro ⟨w', hw', -, hwo, hvv, hcov⟩
            obtain ⟨v', hv', k'⟩ := mem_updated u hw'
            have : v' = v := eq_of_key hw.objs hv' hv (by rw [← k'.obj, hwo, ho])
            subst this
            rw [k'.skipped hsk] at hvv hcov
            rw [hvis, eabove, ← hon] at hvv
            rw [if_pos hvv, hcov]
        · -- deleted
          have hnk : kept false (v.ctl.res.update A) = false := by
            by_contra hh
            refine ht ?_
            unfold touched
            have : v.ijt < t := by omega
            simp only [Bool.not_eq_false] at hh
            simp [hd', this, hh]
          have hgone : ∀ w ∈ (update A o t n g).views, ¬ w.obj = obj := by
            intro w hw' hwo
            obtain ⟨v', hv', k'⟩ := mem_updated u hw'
            have : v' = v := eq_of_key hw.objs hv' hv (by rw [← k'.obj, hwo, ho])
            subst this
            exact ht (k'.touched (by omega)).1
          have hnv : ¬ Visible g v := by
            refine hdel fun w hw' e => ?_
            obtain ⟨v', hv', k'⟩ := mem_updated u hw'
            have : v' = v := eq_of_key hw.oids hv' hv (by rw [← k'.oid, e])
            subst this
            exact hgone w hw' (by rw [k'.obj]; exact ho)
          rw [hold]
          constructor
          · intro e
            split at e
            · rename_i hh
              exact absurd ((visible_iff g v).2 hh) hnv
            · cases e
          · rintro ⟨w', hw', -, hwo, -⟩
            exact absurd hwo (hgone w' hw')
      · intro w hw' hwk hwt hwo
        have : w = v := eq_of_key hw.objs hw' hv (by rw [hwo, ho])
        subst this
        exact ht hwt
  · have hno : ∀ v ∈ g.views, v.kind = .group → v.obj ≠ obj := fun v hv hk ho => hex ⟨v, hv, hk, ho⟩
    rw [f1 fun v hv hk _ => hno v hv hk, old c]
    constructor
    · rintro ⟨v, hv, hk, ho, -⟩; exact absurd ho (hno v hv hk)
    · rintro ⟨w, hw', hk, ho, -⟩
      obtain ⟨v, hv, k⟩ := mem_updated u hw'
      exact absurd (by rw [← k.obj]; exact ho) (hno v hv (by rw [← k.kind]; exact hk))

/-- Nothing that C98 speaks of has changed. -/
theorem vis_same {g g' : G} (h : VisInv g) (hd : ∀ o, g'.dead o = false → g.dead o = false) (hw : g'.viewing = g.viewing)
    (hc : ∀ k, value g' k = value g k) (h1 : ∀ v ∈ g.views, ∃ w ∈ g'.views, w.kind = v.kind ∧ w.obj = v.obj ∧ w.cov = v.cov ∧ w.ctl.vis.val = v.ctl.vis.val)
    (h2 : ∀ w ∈ g'.views, ∃ v ∈ g.views, w.kind = v.kind ∧ w.obj = v.obj ∧ w.cov = v.cov ∧ w.ctl.vis.val = v.ctl.vis.val) :
    VisInv g' := by
  intro obj hd' c
  rw [hw, h obj (hd obj hd') c]
  have hv : ∀ v w : V, w.ctl.vis.val = v.ctl.vis.val → (Visible g' w ↔ Visible g v) := by
    intro v w e
    unfold Visible On
    rw [hc, hc, hc, hc, hc, e]
  constructor
  · rintro ⟨v, hv', hk, ho, hvis, hcov⟩
    obtain ⟨w, hw', e1, e2, e3, e4⟩ := h1 v hv'
    exact ⟨w, hw', by rw [e1]; exact hk, by rw [e2]; exact ho, (hv v w e4).2 hvis, by rw [e3]; exact hcov⟩
  · rintro ⟨w, hw', hk, ho, hvis, hcov⟩
    obtain ⟨v, hv', e1, e2, e3, e4⟩ := h2 w hw'
    exact ⟨v, hv', by rw [← e1]; exact hk, by rw [← e2]; exact ho, (hv v w e4).1 hvis, by rw [← e3]; exact hcov⟩

/-- A view of something other than a group is added. -/
theorem vis_other {g g' : G} {w : V} (h : VisInv g) (hv : g'.views = g.views ++ [w]) (hc : g'.ctrl = g.ctrl)
    (hd : g'.dead = g.dead) (hw : g'.viewing = g.viewing) (hk : w.kind ≠ .group) : VisInv g' := by
  intro obj hd' c
  rw [hd] at hd'
  rw [hw, h obj hd' c]
  have hvis : ∀ v, Visible g' v ↔ Visible g v := by
    intro v; rw [visible_iff, visible_iff, hc]
  constructor
  · rintro ⟨v, hv', hk', ho, hvi, hcov⟩
    exact ⟨v, by rw [hv]; exact List.mem_append_left _ hv', hk', ho, (hvis v).2 hvi, hcov⟩
  · rintro ⟨v, hv', hk', ho, hvi, hcov⟩
    rw [hv, List.mem_append, List.mem_singleton] at hv'
    rcases hv' with hv' | rfl
    · exact ⟨v, hv', hk', ho, (hvis v).1 hvi, hcov⟩
    · exact absurd hk' hk

/-- A view of a group is added, and the group is registered if it is visible. -/
theorem vis_group {g g' : G} {w : V} (h : VisInv g) (hv : g'.views = g.views ++ [w]) (hc : g'.ctrl = g.ctrl)
    (hd : g'.dead = g.dead) (hk : w.kind = .group) (hn : ∀ u ∈ g.views, u.oid ≠ w.oid ∧ u.obj ≠ w.obj)
    (hw : g'.viewing = if above w.ctl.vis g.ctrl.visThr && g.ctrl.on then setViewing g.viewing w.obj (some w.cov) else g.viewing) :
    VisInv g' := by
  intro obj hd' c
  rw [hd] at hd'
  have hvis : ∀ v, Visible g' v ↔ Visible g v := by
    intro v; rw [visible_iff, visible_iff, hc]
  have old := h obj hd' c
  by_cases ho : w.obj = obj
  · have hnone : ¬ g.viewing obj = some c := by
      rw [old]
      rintro ⟨u, hu, -, huo, -⟩
      exact (hn u hu).2 (by rw [huo, ho])
    have rhs : (∃ v ∈ g'.views, v.kind = .group ∧ v.obj = obj ∧ Visible g' v ∧ v.cov = c) ↔ Visible g w ∧ w.cov = c := by
      constructor
      · rintro ⟨v, hv', hk', ho', hvi, hcov⟩
        rw [hv, List.mem_append, List.mem_singleton] at hv'
        rcases hv' with hv' | rfl
        · exact absurd (by rw [ho', ho]) (hn v hv').2
        · exact ⟨(hvis v).1 hvi, hcov⟩
      · rintro ⟨h1, h2⟩
        exact ⟨w, by rw [hv]; simp, hk, ho, (hvis w).2 h1, h2⟩
    rw [rhs, hw, visible_iff]
    split
    · rename_i hh
      unfold setViewing
      rw [if_pos ho.symm]
      simp [hh]
    · rename_i hh
      constructor
      · intro e; exact absurd e hnone
      · intro e; exact absurd e.1 hh
  · have e : g'.viewing obj = g.viewing obj := by
      rw [hw]
      split
      · unfold setViewing; rw [if_neg (Ne.symm ho)]
      · rfl
    rw [e, old]
    constructor
    · rintro ⟨v, hv', hk', ho', hvi, hcov⟩
      exact ⟨v, by rw [hv]; exact List.mem_append_left _ hv', hk', ho', (hvis v).2 hvi, hcov⟩
    · rintro ⟨v, hv', hk', ho', hvi, hcov⟩
      rw [hv, List.mem_append, List.mem_singleton] at hv'
      rcases hv' with hv' | rfl
      · exact ⟨v, hv', hk', ho', (hvis v).1 hvi, hcov⟩
      · exact absurd ho' ho

theorem onView_mem {g : G} {oid : Nat} {f : V → V} (hf : ∀ v, (f v).kind = v.kind ∧ (f v).obj = v.obj ∧ (f v).cov = v.cov ∧ (f v).ctl.vis.val = v.ctl.vis.val) :
    (∀ v ∈ g.views, ∃ w ∈ (onView g oid f).views, w.kind = v.kind ∧ w.obj = v.obj ∧ w.cov = v.cov ∧ w.ctl.vis.val = v.ctl.vis.val) ∧
    (∀ w ∈ (onView g oid f).views, ∃ v ∈ g.views, w.kind = v.kind ∧ w.obj = v.obj ∧ w.cov = v.cov ∧ w.ctl.vis.val = v.ctl.vis.val) := by
  constructor
  · intro v hv
    refine ⟨if v.oid = oid then f v else v, List.mem_map.2 ⟨v, hv, rfl⟩, ?_⟩
    split
    · exact hf v
    · exact ⟨rfl, rfl, rfl, rfl⟩
  · intro w hw
    obtain ⟨v, hv, rfl | rfl⟩ := mem_onView hw
    · exact ⟨v, hv, hf v⟩
    · exact ⟨w, hv, rfl, rfl, rfl, rfl⟩

theorem vis_step {A : Arith} {g : G} {op : Op} (hwf : Wf g) (h : VisInv g) (hok : Ok g op) (hc : VCalm A g op) :
    VisInv (step A g op) := by
  cases op with
  | load v =>
    show VisInv (load g v)
    unfold load
    have hact : v.kind ≠ .group → VisInv { g with views := g.views ++ [{ v with active := isActivePgm g.ctrl v }] } :=
      fun hk => vis_other h rfl rfl rfl rfl hk
    split
    · rename_i hk
      have e : (above g.ctrl.cAct g.ctrl.cActThr && above g.ctrl.cSln g.ctrl.cSlnThr && above v.ctl.vis g.ctrl.visThr) = (above v.ctl.vis g.ctrl.visThr && g.ctrl.on) := by
        unfold Ctrl.on
        cases above g.ctrl.cAct g.ctrl.cActThr <;> cases above g.ctrl.cSln g.ctrl.cSlnThr <;> cases above v.ctl.vis g.ctrl.visThr <;> rfl
      rw [e]
      split
      · rename_i hh
        exact vis_group (w := v) h rfl rfl rfl hk hok.1 (by rw [if_pos hh])
      · rename_i hh
        exact vis_group (w := v) h rfl rfl rfl hk hok.1 (by rw [if_neg hh])
    · rename_i hk; exact hact (by rw [hk]; intro h; cases h)
    · rename_i hk; exact hact (by rw [hk]; intro h; cases h)
    · rename_i hk; exact hact (by rw [hk]; intro h; cases h)
    · rename_i hk; exact vis_other (w := v) h rfl rfl rfl rfl (by rw [hk]; intro h; cases h)
    · exact h
  | start n =>
    have hd : (start n g).dead = g.dead := by
      unfold start
      dsimp only
      split_ifs <;> first | rfl | rw [foldJobs_eq]
    have hv : (start n g).viewing = g.viewing := by
      unfold start
      dsimp only
      split_ifs <;> first | rfl | rw [foldJobs_eq]
    refine vis_same h (fun o e => by rw [← hd]; exact e) hv (fun k => by unfold value; exact congrArg (fun c => (Ctrl.get c k).val) (start_ctrl n g)) ?_ ?_
    · intro v hv
      exact ⟨{ v with ijt := n }, by (show _ ∈ (start n g).views; rw [start_views]; exact List.mem_map.2 ⟨v, hv, rfl⟩), rfl, rfl, rfl, rfl⟩
    · intro w hw
      have hw : w ∈ (start n g).views := hw
      rw [start_views] at hw
      obtain ⟨v, hv, rfl⟩ := List.mem_map.1 hw
      exact ⟨v, hv, rfl, rfl, rfl, rfl⟩
  | inject n v =>
    have hd : (inject n g v).dead = g.dead := by
      unfold inject
      dsimp only
      split
      · rw [reduceJobs_eq]
      · rfl
    have hv : (inject n g v).viewing = g.viewing := by
      unfold inject
      dsimp only
      split
      · rw [reduceJobs_eq]
      · rfl
    exact vis_other h (inject_views n g v) (inject_ctrl n g v) hd hv hok.2.1
  | injectGroup v =>
    have hd : (injectGroup g v).dead = g.dead := by
      unfold injectGroup
      dsimp only
      split_ifs <;> first | rfl | rw [reduceJobs_eq]
    refine vis_group h (injectGroup_views g v) (injectGroup_ctrl g v) hd hok.2 hok.1 ?_
    have hc : value g .visThr < v.ctl.vis.val → (On g ↔ value g .cSlnThr < value g .cSln ∧ Salient g v) := hc
    have e : (above v.ctl.vis g.ctrl.visThr && g.ctrl.on) = (above v.ctl.vis g.ctrl.visThr && (above g.ctrl.cSln g.ctrl.cSlnThr && above v.ctl.sln g.ctrl.slnThr)) := by
      rw [Bool.eq_iff_iff]
      simp only [Bool.and_eq_true, above_eq, on_iff]
      constructor
      · rintro ⟨h1, h2⟩; exact ⟨h1, (hc h1).1 h2⟩
      · rintro ⟨h1, h2⟩; exact ⟨h1, (hc h1).2 h2⟩
    rw [e]
    show (injectGroup g v).viewing = _
    unfold injectGroup
    dsimp only
    cases h1 : above g.ctrl.cSln g.ctrl.cSlnThr <;> cases h2 : above v.ctl.sln g.ctrl.slnThr <;>
      cases h3 : above v.ctl.vis g.ctrl.visThr <;> simp [reduceJobs_eq]
  | injectExisting n old v =>
    have hon := on_congr hc
    obtain ⟨l, -, e⟩ := injectExisting_eq A n g old v
    show VisInv (injectExisting A n g old v)
    rw [e] at hon ⊢
    have hon : g.ctrl.on = (g.ctrl.again A).on := hon
    have h1 : VisInv (onView g old.oid (again A n v)) := by
      obtain ⟨m1, m2⟩ := onView_mem (g := g) (oid := old.oid) (f := again A n v) fun u => ⟨rfl, rfl, rfl, (again_fields A n v u).2.2.2.2.2.2.2⟩
      exact vis_same h (fun _ e => e) rfl (fun _ => rfl) m1 m2
    intro obj hd c
    refine (h1 obj hd c).trans ?_
    refine exists_congr fun w => and_congr_right fun _ => and_congr_right fun _ => and_congr_right fun _ => and_congr_left fun _ => ?_
    rw [visible_iff, visible_iff]
    show _ ↔ (above w.ctl.vis g.ctrl.visThr && (g.ctrl.again A).on) = true
    rw [← hon]
    exact Iff.rfl
  | modGroup m x => exact vis_same h (fun _ e => e) rfl (fun k => modGroup_val A g m k x) (fun v hv => ⟨v, hv, rfl, rfl, rfl, rfl⟩) fun v hv => ⟨v, hv, rfl, rfl, rfl, rfl⟩
  | setGroup m x => exact vis_same h (fun _ e => e) rfl (fun k => setGroup_val A g m k x) (fun v hv => ⟨v, hv, rfl, rfl, rfl, rfl⟩) fun v hv => ⟨v, hv, rfl, rfl, rfl, rfl⟩
  | modView oid m x =>
    obtain ⟨m1, m2⟩ := onView_mem (g := g) (oid := oid) (f := fun v => { v with ctl := v.ctl.mod A m x }) fun u => ⟨rfl, rfl, rfl, (mod_val A u.ctl m x).2.1⟩
    exact vis_same h (fun _ e => e) rfl (fun _ => rfl) m1 m2
  | setView oid m x =>
    obtain ⟨m1, m2⟩ := onView_mem (g := g) (oid := oid) (f := fun v => { v with ctl := v.ctl.set A m x }) fun u => ⟨rfl, rfl, rfl, (set_val A u.ctl m x).2.1⟩
    exact vis_same h (fun _ e => e) rfl (fun _ => rfl) m1 m2
  | invalidate obj =>
    refine vis_same h (fun o e => ?_) rfl (fun _ => rfl) (fun v hv => ⟨v, hv, rfl, rfl, rfl, rfl⟩) fun v hv => ⟨v, hv, rfl, rfl, rfl, rfl⟩
    have e : (g.dead o || decide (o = obj)) = false := e
    simp only [Bool.or_eq_false_iff] at e
    exact e.1
  | stop oid =>
    obtain ⟨m1, m2⟩ := onView_mem (g := g) (oid := oid) (f := fun v => { v with stopped := true }) fun u => ⟨rfl, rfl, rfl, rfl⟩
    exact vis_same h (fun _ e => e) rfl (fun _ => rfl) m1 m2
  | update o t n => exact vis_update hwf h hc

theorem vis_run {A : Arith} : ∀ {ops : List Op} {g : G}, Wf g → VisInv g → Oks A g ops → Each A (VCalm A) g ops →
    VisInv (run A g ops)
  | [], _, _, h, _, _ => h
  | _ :: _, _, hw, h, hk, hc => by
    rw [run_cons]
    exact vis_run (wf_step hw hk.1) (vis_step hw h hk.1 hc.1) hk.2 hc.2

theorem vis_begin (b : Begin) : VisInv b.group := by
  intro obj _ c
  constructor
  · intro h; cases h
  · rintro ⟨v, hv, -⟩; exact absurd hv List.not_mem_nil

/-! ## C96 -/

/-- Nothing is pending on a member. -/
def Idle (c : Chan) : Prop := c.acc = 0 ∧ c.changes = 0

theorem updateThr_idle (A : Arith) (c : Chan) : Idle (c.updateThr A) := by
  unfold Chan.updateThr
  split <;> exact ⟨rfl, rfl⟩

/-- What is pending on a member after requests. -/
theorem pending {m : Member} : ∀ {ops : List Op} {g : G}, (∀ op ∈ ops, ∀ o t n, op ≠ .update o t n) →
    (∀ op ∈ ops, ∀ n old v, op = .injectExisting n old v → m ≠ .cAct ∧ m ≠ .cSln) →
    (((run exact g ops).ctrl.get m).val = (g.ctrl.get m).val) ∧
    (((run exact g ops).ctrl.get m).acc = (g.ctrl.get m).acc + (requests (value g m) m ops).sum) ∧
    (((run exact g ops).ctrl.get m).changes = (g.ctrl.get m).changes + (requests (value g m) m ops).length)
  | [], g, _, _ => by simp [run, requests]
  | op :: ops, g, h1, h2 => by
    rw [run_cons]
    obtain ⟨i1, i2, i3⟩ := pending (m := m) (ops := ops) (g := step exact g op) (fun o ho => h1 o (List.mem_cons_of_mem _ ho)) fun o ho => h2 o (List.mem_cons_of_mem _ ho)
    have same : (step exact g op).ctrl.get m = g.ctrl.get m → requests (value g m) m (op :: ops) = requests (value g m) m ops →
        (((run exact (step exact g op) ops).ctrl.get m).val = (g.ctrl.get m).val) ∧
        (((run exact (step exact g op) ops).ctrl.get m).acc = (g.ctrl.get m).acc + (requests (value g m) m (op :: ops)).sum) ∧
        (((run exact (step exact g op) ops).ctrl.get m).changes = (g.ctrl.get m).changes + (requests (value g m) m (op :: ops)).length) := by
      intro e1 e2
      have ev : value (step exact g op) m = value g m := by unfold value; rw [e1]
      rw [e2]
      rw [ev, e1] at i2 i3
      rw [e1] at i1
      exact ⟨i1, i2, i3⟩
    cases op with
    | load v =>
      refine same ?_ rfl
      show (load g v).ctrl.get m = _
      unfold load
      split
      · split <;> rfl
      all_goals rfl
    | start n => exact same (congrArg (fun c => Ctrl.get c m) (start_ctrl n g)) rfl
    | inject n v => exact same (congrArg (fun c => Ctrl.get c m) (inject_ctrl n g v)) rfl
    | injectGroup v => exact same (congrArg (fun c => Ctrl.get c m) (injectGroup_ctrl g v)) rfl
    | injectExisting n old v =>
      refine same ?_ rfl
      obtain ⟨l, -, e⟩ := injectExisting_eq exact n g old v
      show (injectExisting exact n g old v).ctrl.get m = _
      rw [e]
      obtain ⟨n1, n2⟩ := h2 _ List.mem_cons_self n old v rfl
      show (g.ctrl.again exact).get m = _
      cases m <;> first | rfl | exact absurd rfl n1 | exact absurd rfl n2
    | modGroup k x =>
      by_cases hk : k = m
      · subst hk
        have e : (step exact g (.modGroup k x)).ctrl.get k = (g.ctrl.get k).mod exact x := by
          show (g.ctrl.put k ((g.ctrl.get k).mod exact x)).get k = _
          cases k <;> rfl
        have ev : value (step exact g (.modGroup k x)) k = value g k := modGroup_val exact g k k x
        rw [ev, e] at i2 i3
        rw [e] at i1
        have er : requests (value g k) k (.modGroup k x :: ops) = x :: requests (value g k) k ops := by
          rw [requests, if_pos rfl]
        rw [er, List.sum_cons, List.length_cons]
        refine ⟨i1, ?_, ?_⟩
        · rw [i2]
          show (g.ctrl.get k).acc + x + _ = _
          ring
        · rw [i3]
          show (g.ctrl.get k).changes + 1 + _ = _
          omega
      · refine same ?_ (by rw [requests, if_neg hk])
        show (g.ctrl.put k ((g.ctrl.get k).mod exact x)).get m = _
        cases k <;> cases m <;> first | rfl | exact absurd rfl hk
    | setGroup k x =>
      by_cases hk : k = m
      · subst hk
        have e : (step exact g (.setGroup k x)).ctrl.get k = (g.ctrl.get k).set exact x := by
          show (g.ctrl.put k ((g.ctrl.get k).set exact x)).get k = _
          cases k <;> rfl
        have ev : value (step exact g (.setGroup k x)) k = value g k := setGroup_val exact g k k x
        rw [ev, e] at i2 i3
        rw [e] at i1
        have er : requests (value g k) k (.setGroup k x :: ops) = (x - value g k) :: requests (value g k) k ops := by
          rw [requests, if_pos rfl]
        rw [er, List.sum_cons, List.length_cons]
        refine ⟨i1, ?_, ?_⟩
        · rw [i2]
          show (g.ctrl.get k).acc + (x - (g.ctrl.get k).val) + _ = _
          unfold value
          ring
        · rw [i3]
          show (g.ctrl.get k).changes + 1 + _ = _
          omega
      · refine same ?_ (by rw [requests, if_neg hk])
        show (g.ctrl.put k ((g.ctrl.get k).set exact x)).get m = _
        cases k <;> cases m <;> first | rfl | exact absurd rfl hk
    | modView oid k x => exact same rfl rfl
    | setView oid k x => exact same rfl rfl
    | invalidate obj => exact same rfl rfl
    | stop oid => exact same rfl rfl
    | update o t n => exact absurd rfl (h1 _ List.mem_cons_self o t n)

end Verif.Cycle
