import Verif.Cycle.Inv
/-!
# What programs are given
-/
namespace Verif.Cycle
open Verif.F32 Verif.ViewCtl

/-- One of a list with distinct keys. -/
theorem filter_key {α β κ : Type _} [DecidableEq κ] (k : α → κ) (F : α → List β) (P : β → Bool) (x : α) :
    ∀ l : List α, (l.map k).Nodup → (∀ y ∈ l, k y ≠ k x → (F y).filter P = []) →
    (x ∈ l → (l.flatMap F).filter P = (F x).filter P) ∧ ((∀ y ∈ l, k y ≠ k x) → (l.flatMap F).filter P = [])
  | [], _, _ => ⟨fun h => absurd h List.not_mem_nil, fun _ => rfl⟩
  | y :: l, hn, h => by
    rw [List.map_cons, List.nodup_cons] at hn
    obtain ⟨i1, i2⟩ := filter_key k F P x l hn.2 fun z hz => h z (List.mem_cons_of_mem _ hz)
    rw [List.flatMap_cons, List.filter_append]
    constructor
    · intro hx
      rcases List.mem_cons.1 hx with e | hx
      · subst e
        rw [i2, List.append_nil]
        intro z hz e
        exact hn.1 (List.mem_map.2 ⟨z, hz, e⟩)
      · rw [h y List.mem_cons_self, List.nil_append, i1 hx]
        intro e
        exact hn.1 (List.mem_map.2 ⟨x, hx, e.symm⟩)
    · intro hx
      rw [h y List.mem_cons_self (hx y List.mem_cons_self), List.nil_append, i2 fun z hz => hx z (List.mem_cons_of_mem _ hz)]

theorem filter_flatMap {α β : Type _} (P : β → Bool) (F : α → List β) : ∀ l : List α,
    (l.flatMap F).filter P = l.flatMap fun x => (F x).filter P
  | [] => rfl
  | x :: l => by rw [List.flatMap_cons, List.filter_append, filter_flatMap P F l, List.flatMap_cons]

/-- The controller of a view can take inputs in the group. -/
def Hears (g : G) (p : V) : Prop :=
  above g.ctrl.cAct g.ctrl.cActThr = true ∧ p.kind.takes = true ∧ above p.ctl.act g.ctrl.actThr = true ∧ p.active = true ∧ p.stopped = false

theorem take_oid {dead : Nat → Bool} {p : V} {i x : Nat × Nat} (h : x ∈ take dead p i) : x.1 = p.oid ∧ x.2 = i.1 := by
  unfold take at h
  split at h
  · rw [List.mem_singleton] at h
    subst h
    exact ⟨rfl, rfl⟩
  · exact absurd h List.not_mem_nil

/-- The jobs made for a program. -/
theorem jobs_filter {g : G} (hw : Wf g) {p : V} (hp : p ∈ g.views) (i : Nat × Nat) :
    (Hears g p → (jobsOf g i).filter (fun x => x.1 = p.oid) = if g.dead i.2 then [] else [(p.oid, i.1)]) ∧
    (¬ Hears g p → (jobsOf g i).filter (fun x => x.1 = p.oid) = []) := by
  unfold jobsOf
  split
  · rename_i hc
    rw [(filter_key (·.oid) _ _ p g.views hw.oids ?_).1 hp]
    · constructor
      · rintro ⟨-, h1, h2, h3, h4⟩
        rw [if_pos (by rw [h1, h2]; rfl)]
        unfold take
        rw [h3, h4]
        cases g.dead i.2 <;> simp
      · intro hn
        split
        · rename_i hh
          simp only [Bool.and_eq_true] at hh
          unfold take
          split
          · rename_i h3
            simp only [Bool.and_eq_true, Bool.not_eq_true'] at h3
            exact absurd ⟨hc, hh.1, hh.2, h3.1.1, h3.1.2⟩ hn
          · rfl
        · rfl
    · intro y _ hy
      rw [List.filter_eq_nil_iff]
      intro x hx
      split at hx
      · simp [(take_oid hx).1, hy]
      · exact absurd hx List.not_mem_nil
  · rename_i hc
    exact ⟨fun h => absurd h.1 hc, fun _ => rfl⟩

theorem jobs_oid {g : G} {i x : Nat × Nat} (h : x ∈ jobsOf g i) : ∃ p ∈ g.views, x.1 = p.oid := by
  unfold jobsOf at h
  split at h
  · obtain ⟨p, hp, hx⟩ := List.mem_flatMap.1 h
    split at hx
    · exact ⟨p, hp, (take_oid hx).1⟩
    · exact absurd hx List.not_mem_nil
  · exact absurd h List.not_mem_nil

theorem count_filter_key (l : List (Nat × Nat)) (p i : Nat) :
    l.count (p, i) = (l.filter fun x => x.1 = p).count (p, i) := by
  rw [List.count_filter (by simp)]

/-- The newly salient views after an update have their own OIDs. -/
theorem newly_oids {A : Arith} {o : Order} {t n : Int} {g g' : G} (u : Updated A o t n g g') (hw : Wf g) :
    (g'.newly.map (·.1)).Nodup := by
  rw [u.newly]
  have : ∀ vs : List V, ((vs.flatMap (newOf A (gstate A o g.ctrl) (g.ctrl.updated A) g.dead t n)).map (·.1)).Sublist (vs.map (·.oid)) := by
    intro vs
    induction vs with
    | nil => simp
    | cons v vs ih =>
      rw [List.flatMap_cons, List.map_append, List.map_cons]
      unfold newOf at *
      split
      · exact ih.cons_cons _
      · exact ih.cons _
  exact (this g.views).nodup hw.oids

theorem mem_newly {A : Arith} {o : Order} {t n : Int} {g g' : G} (u : Updated A o t n g g') (hw : Wf g) {v : V}
    (hv : v ∈ g.views) {x : Nat × Nat} (hx : x ∈ g'.newly) (e : x.1 = v.oid) :
    x = (v.oid, v.obj) ∧ touched A g.dead t v = true ∧ (updateSaliency A (gstate A o g.ctrl) (g.ctrl.updated A) n v).2 = true := by
  rw [u.newly] at hx
  obtain ⟨w, hw', hx⟩ := List.mem_flatMap.1 hx
  unfold newOf at hx
  split at hx
  · rename_i hh
    rw [List.mem_singleton] at hx
    have : w = v := eq_of_key hw.oids hw' hv (by rw [← e, hx])
    subst this
    simp only [Bool.and_eq_true] at hh
    exact ⟨hx, hh.1, hh.2⟩
  · exact absurd hx List.not_mem_nil

theorem newly_mem {A : Arith} {o : Order} {t n : Int} {g g' : G} (u : Updated A o t n g g') {v : V}
    (hv : v ∈ g.views) (h1 : touched A g.dead t v = true)
    (h2 : (updateSaliency A (gstate A o g.ctrl) (g.ctrl.updated A) n v).2 = true) : (v.oid, v.obj) ∈ g'.newly := by
  rw [u.newly]
  refine List.mem_flatMap.2 ⟨v, hv, ?_⟩
  unfold newOf
  rw [if_pos (by rw [h1, h2]; rfl)]
  exact List.mem_singleton.2 rfl

/-- When `_update_saliency` records a view. -/
theorem updSal_snd (A : Arith) (st : GState) (c : Ctrl) (n : Int) (v : V) :
    (updateSaliency A st c n v).2 = true ↔
      st.isSln = true ∧ c.slnThr.val < (v.ctl.sln.update A).val ∧
        (v.sync = .hold ∨ v.sync = .always ∨ ¬ st.formerSlnThr < v.ctl.sln.val) := by
  unfold updateSaliency
  dsimp only
  cases hs : st.isSln
  · simp
  · by_cases ha : above (v.ctl.sln.update A) c.slnThr = true
    · have ha' := (above_eq _ _).1 ha
      rw [ha]
      simp only [Bool.and_self, if_true]
      cases v.sync <;> simp [ha']
    · have ha' : ¬ c.slnThr.val < (v.ctl.sln.update A).val := fun h => ha ((above_eq _ _).2 h)
      simp [ha, ha']

/-- What an update adds to the inputs of a program. -/
theorem given_update {A : Arith} {o : Order} {t n : Int} {g : G} (hw : Wf g) {p : V}
    (hp : p ∈ (update A o t n g).views) (hw' : Wf (update A o t n g)) {v : V} (hv : v ∈ g.views)
    (hd : g.dead v.obj = false) :
    ((Hears (update A o t n g) p ∧ touched A g.dead t v = true ∧ (updateSaliency A (gstate A o g.ctrl) (g.ctrl.updated A) n v).2 = true) →
      given (update A o t n g) p.oid v.oid = given g p.oid v.oid + 1) ∧
    (¬ (Hears (update A o t n g) p ∧ touched A g.dead t v = true ∧ (updateSaliency A (gstate A o g.ctrl) (g.ctrl.updated A) n v).2 = true) →
      given (update A o t n g) p.oid v.oid = given g p.oid v.oid) := by
  have u := update_updated A o t n g
  generalize hg : update A o t n g = g' at *
  unfold given
  rw [u.took, List.count_append, count_filter_key (g'.newly.flatMap (jobsOf g')), filter_flatMap]
  by_cases hh : Hears g' p
  · have e : (fun x => (jobsOf g' x).filter fun y => y.1 = p.oid) = fun x : Nat × Nat => if g'.dead x.2 then [] else [(p.oid, x.1)] :=
      funext fun x => (jobs_filter hw' hp x).1 hh
    rw [e]
    have key := filter_key (fun x : Nat × Nat => x.1) (fun x => if g'.dead x.2 then [] else [(p.oid, x.1)]) (fun y => y = (p.oid, v.oid)) (v.oid, v.obj) g'.newly (newly_oids u hw) (by
      intro y _ hy
      dsimp only at hy ⊢
      split
      · rfl
      · simp [hy])
    have hcount : ∀ l : List (Nat × Nat), l.count (p.oid, v.oid) = (l.filter fun y => y = (p.oid, v.oid)).length := by
      intro l
      rw [← List.countP_eq_length_filter]
      unfold List.count
      congr 1
      funext y
      rw [Bool.eq_iff_iff]
      simp
    rw [hcount (List.flatMap _ _)]
    constructor
    · rintro ⟨-, h1, h2⟩
      rw [key.1 (newly_mem u hv h1 h2), u.dead, hd]
      simp
    · intro hn
      rw [key.2]
      · simp
      · intro y hy e
        exact hn ⟨hh, (mem_newly u hw hv hy e).2⟩
  · constructor
    · intro h; exact absurd h.1 hh
    · intro _
      have e : (fun x => (jobsOf g' x).filter fun y => y.1 = p.oid) = fun x : Nat × Nat => [] :=
        funext fun x => (jobs_filter hw' hp x).2 hh
      rw [e]
      have : ∀ l : List (Nat × Nat), (l.flatMap fun _ => ([] : List (Nat × Nat))) = [] := by
        intro l; induction l with
        | nil => rfl
        | cons x l ih => rw [List.flatMap_cons, ih]; rfl
      rw [this]
      simp

/-! ## C101 -/

/-- Between operations no controller waits for its signalling job. -/
theorem fresh_step {A : Arith} {g : G} {op : Op} (h : g.fresh = []) : (step A g op).fresh = [] := by
  cases op with
  | load v =>
    show (load g v).fresh = []
    unfold load
    split
    · split <;> exact h
    all_goals exact h
  | start n =>
    show (start n g).fresh = []
    unfold start
    dsimp only
    split_ifs <;> first | exact h | (rw [foldJobs_eq]; exact h)
  | inject n v =>
    show (inject n g v).fresh = []
    unfold inject
    dsimp only
    split
    · rw [reduceJobs_eq]; exact h
    · exact h
  | injectGroup v =>
    show (injectGroup g v).fresh = []
    unfold injectGroup
    dsimp only
    split_ifs <;> first | exact h | (rw [reduceJobs_eq]; exact h)
  | injectExisting n old v =>
    obtain ⟨l, -, e⟩ := injectExisting_eq A n g old v
    show (injectExisting A n g old v).fresh = []
    rw [e]
    exact h
  | modGroup m x => exact h
  | setGroup m x => exact h
  | modView oid m x => exact h
  | setView oid m x => exact h
  | invalidate obj => exact h
  | stop oid => exact h
  | update o t n =>
    have u := update_updated A o t n g
    show (update A o t n g).fresh = []
    by_cases hon : (gstate A o g.ctrl).isAct = true ∧ (gstate A o g.ctrl).isSln = true
    · exact u.fresh hon.1 hon.2
    · rw [u.fresh' hon, h, List.nil_append, List.flatMap_eq_nil_iff]
      intro v _
      unfold freshOf
      rw [if_neg]
      rw [updAct_fresh_eq]
      simp only [Bool.and_eq_true]
      intro hh
      exact hon ⟨hh.2.1.1.1, hh.2.1.1.2⟩

theorem fresh_run {A : Arith} : ∀ {ops : List Op} {g : G}, g.fresh = [] → (run A g ops).fresh = []
  | [], _, h => h
  | op :: ops, g, h => by
    rw [run_cons]
    exact fresh_run (fresh_step (op := op) h)

/-- The signalling jobs of an update. -/
theorem signals_update {A : Arith} {o : Order} {t n : Int} {g : G} (hw : Wf g) (hf : g.fresh = []) {v : V} (hv : v ∈ g.views)
    (hk : v.kind = .anti ∨ v.kind = .inputLess) :
    (update A o t n g).signals.count v.oid = g.signals.count v.oid +
      if touched A g.dead t v && (updateActivation A (gstate A o g.ctrl) (g.ctrl.updated A) v).2 then 1 else 0 := by
  have u := update_updated A o t n g
  have hcon : v.kind.controlled = true := by rcases hk with h | h <;> rw [h] <;> rfl
  by_cases hon : (gstate A o g.ctrl).isAct = true ∧ (gstate A o g.ctrl).isSln = true
  · rw [u.signals hon.1 hon.2, hf, List.nil_append, List.count_append, List.flatMap_assoc]
    congr 1
    have hcount : ∀ l : List Nat, l.count v.oid = (l.filter fun y => y = v.oid).length := by
      intro l
      rw [← List.countP_eq_length_filter]
      unfold List.count
      congr 1
    rw [hcount, (filter_key (·.oid) _ _ v g.views hw.oids ?_).1 hv]
    · unfold freshOf
      rw [hcon, Bool.and_true]
      split
      · rcases hk with h | h <;> simp [signalOf, h]
      · rfl
    · intro y _ hy
      rw [List.filter_eq_nil_iff]
      intro x hx
      obtain ⟨z, hz, hx⟩ := List.mem_flatMap.1 hx
      unfold freshOf at hz
      split at hz
      · rw [List.mem_singleton] at hz
        subst hz
        have : x = y.oid := by
          revert hx
          unfold signalOf
          dsimp only
          cases y.kind <;> simp
        simp [this, hy]
      · exact absurd hz List.not_mem_nil
  · rw [u.signals' hon, if_neg, Nat.add_zero]
    rw [updAct_fresh_eq]
    simp only [Bool.and_eq_true]
    intro hh
    exact hon ⟨hh.2.1.1.1, hh.2.1.1.2⟩

/-- No signalling jobs for other views. -/
theorem signals_update_none {A : Arith} {o : Order} {t n : Int} {g : G} (hw : Wf g) (hf : g.fresh = []) {v : V}
    (hv : v ∈ g.views) (hk : ¬ Signalled v.kind) : (update A o t n g).signals.count v.oid = g.signals.count v.oid := by
  have u := update_updated A o t n g
  by_cases hon : (gstate A o g.ctrl).isAct = true ∧ (gstate A o g.ctrl).isSln = true
  · rw [u.signals hon.1 hon.2, hf, List.nil_append, List.count_append, Nat.add_eq_left, List.count_eq_zero]
    intro h
    obtain ⟨y, hy, hx⟩ := List.mem_flatMap.1 h
    obtain ⟨y', hy', hz⟩ := List.mem_flatMap.1 hy
    unfold freshOf at hz
    split at hz
    · rw [List.mem_singleton] at hz
      subst hz
      have e : v.oid = y'.oid ∧ Signalled y'.kind := by
        revert hx
        unfold signalOf Signalled
        dsimp only
        cases y'.kind <;> simp
      have : y' = v := eq_of_key hw.oids hy' hv e.1.symm
      subst this
      exact hk e.2
    · exact absurd hz List.not_mem_nil
  · rw [u.signals' hon]

/-! ## C100 -/

/-- The newly salient views that a program takes. -/
def heard (dead : Nat → Bool) (l : List (Nat × Nat)) : List Nat := (l.filter fun x => !dead x.2).map (·.1)

theorem heard_append (dead : Nat → Bool) (l l' : List (Nat × Nat)) : heard dead (l ++ l') = heard dead l ++ heard dead l' := by
  unfold heard; rw [List.filter_append, List.map_append]

theorem flat_heard {dead : Nat → Bool} (p : Nat) : ∀ l : List (Nat × Nat),
    (l.flatMap fun x => if dead x.2 then [] else [(p, x.1)]).map (·.2) = heard dead l
  | [] => rfl
  | x :: l => by
    rw [List.flatMap_cons, List.map_append, flat_heard p l]
    unfold heard
    rw [List.filter_cons]
    cases dead x.2 <;> simp

/-- The inputs in a list of jobs that went to a program. -/
def toward (p : Nat) (l : List (Nat × Nat)) : List Nat := (l.filter fun x => x.1 = p).map (·.2)

theorem toward_append (p : Nat) (l l' : List (Nat × Nat)) : toward p (l ++ l') = toward p l ++ toward p l' := by
  unfold toward; rw [List.filter_append, List.map_append]

theorem toward_jobs {g : G} (hw : Wf g) {p : V} (hp : p ∈ g.views) (h : Hears g p) (l : List (Nat × Nat)) :
    toward p.oid (l.flatMap (jobsOf g)) = heard g.dead l := by
  unfold toward
  rw [filter_flatMap]
  have e : (fun x => (jobsOf g x).filter fun y => y.1 = p.oid) = fun x : Nat × Nat => if g.dead x.2 then [] else [(p.oid, x.1)] :=
    funext fun x => (jobs_filter hw hp x).1 h
  rw [e]
  exact flat_heard p.oid l

theorem toward_nil {p : Nat} {l : List (Nat × Nat)} (h : ∀ x ∈ l, x.1 ≠ p) : toward p l = [] := by
  unfold toward
  rw [List.map_eq_nil_iff, List.filter_eq_nil_iff]
  intro x hx
  simp [h x hx]

theorem received_eq {g₀ g : G} {l : List (Nat × Nat)} (h : g.took = g₀.took ++ l) (p : Nat) :
    received g₀ g p = toward p l := by
  unfold received toward
  rw [h, List.drop_left]

/-- The program `p` has heard all that is newly salient since `g₀`. -/
structure Keeps (g₀ : G) (p : Nat) (g : G) : Prop where
  wf : Wf g
  /-- The jobs made since. -/
  jobs : ∃ l, g.took = g₀.took ++ l ∧ toward p l = heard g.dead g.newly ∧ ∀ x ∈ l, ∃ v ∈ g.views, x.1 = v.oid
  view : ∃ v ∈ g.views, v.oid = p ∧ v.kind.takes = true ∧ above v.ctl.act g.ctrl.actThr = true ∧ v.active = true ∧ v.stopped = false

/-- Injected: what is heard is added. -/
theorem keeps_more {g₀ g g' : G} {p : Nat} {l : List (Nat × Nat)} (h : Keeps g₀ p g) (hw : Wf g')
    (hv : ∃ v ∈ g'.views, v.oid = p ∧ v.kind.takes = true ∧ above v.ctl.act g'.ctrl.actThr = true ∧ v.active = true ∧ v.stopped = false)
    (hids : ∀ v ∈ g.views, ∃ w ∈ g'.views, w.oid = v.oid)
    (hd : g'.dead = g.dead) (hn : g'.newly = g.newly ++ l) (hon : l = [] ∨ g'.ctrl.on = true) (x : List (Nat × Nat))
    (hx : ∀ y ∈ x, y.1 ≠ p ∧ ∃ v ∈ g'.views, y.1 = v.oid) (ht : g'.took = g.took ++ x ++ l.flatMap (jobsOf g')) :
    Keeps g₀ p g' := by
  obtain ⟨wf, ⟨j, j1, j2, j3⟩, -⟩ := h
  refine ⟨hw, ⟨j ++ x ++ l.flatMap (jobsOf g'), ?_, ?_, ?_⟩, hv⟩
  · rw [ht, j1]; simp only [List.append_assoc]
  · obtain ⟨v, hv1, hv2, hv3, hv4, hv5, hv6⟩ := hv
    rw [toward_append, toward_append, j2, toward_nil fun y hy => (hx y hy).1, hn, heard_append, hd, List.append_nil]
    congr 1
    rcases hon with rfl | hon
    · rfl
    · have hc : above g'.ctrl.cAct g'.ctrl.cActThr = true := by
        unfold Ctrl.on at hon
        simp only [Bool.and_eq_true] at hon
        exact hon.2
      rw [← hv2, toward_jobs hw hv1 ⟨hc, hv3, hv4, hv5, hv6⟩, hd]
  · intro y hy
    rw [List.mem_append, List.mem_append] at hy
    rcases hy with (hy | hy) | hy
    · obtain ⟨v, hv', e⟩ := j3 y hy
      obtain ⟨w, hw', e'⟩ := hids v hv'
      exact ⟨w, hw', by rw [e, e']⟩
    · exact (hx y hy).2
    · obtain ⟨i, -, hy⟩ := List.mem_flatMap.1 hy
      exact jobs_oid hy

/-- What an injection does. -/
theorem inject_eq (now : Int) (g : G) (v : V) :
    ∃ l, (l = [] ∨ l = [(v.oid, v.obj)] ∧ g.ctrl.on = true) ∧ (l = [] ↔ isEligible g.ctrl v = false) ∧
      ∀ w, w = ({ v with ijt := now, active := v.kind.controlled && isActivePgm g.ctrl v } : V) →
      (inject now g v).newly = g.newly ++ l ∧ (inject now g v).dead = g.dead ∧
      (inject now g v).took = g.took ++ (if w.active && takesPast v.kind then g.newly.flatMap (take g.dead w) else []) ++ l.flatMap (jobsOf (inject now g v)) := by
  unfold inject
  dsimp only
  have e : isEligible g.ctrl { v with ijt := now, active := v.kind.controlled && isActivePgm g.ctrl v } = isEligible g.ctrl v := rfl
  rw [e]
  cases h : isEligible g.ctrl v
  · refine ⟨[], Or.inl rfl, by simp, ?_⟩
    intro w hw
    subst hw
    simp
  · refine ⟨[(v.oid, v.obj)], Or.inr ⟨rfl, ?_⟩, by simp, ?_⟩
    · unfold isEligible at h
      simp only [Bool.and_eq_true] at h
      exact h.2
    · intro w hw
      subst hw
      simp only [if_true]
      rw [reduceJobs_eq]
      refine ⟨rfl, rfl, ?_⟩
      simp only [List.flatMap_cons, List.flatMap_nil, List.append_nil]
      rfl

theorem keeps_view {g g' : G} {p oid : Nat} {f : V → V} (hv : g'.views = (onView g oid f).views)
    (hf : ∀ v, (f v).oid = v.oid ∧ (f v).kind = v.kind ∧ (f v).active = v.active ∧ (f v).stopped = v.stopped ∧ (f v).ctl.act.val = v.ctl.act.val)
    (hc : g'.ctrl.actThr.val = g.ctrl.actThr.val)
    (h : ∃ v ∈ g.views, v.oid = p ∧ v.kind.takes = true ∧ above v.ctl.act g.ctrl.actThr = true ∧ v.active = true ∧ v.stopped = false) :
    (∃ v ∈ g'.views, v.oid = p ∧ v.kind.takes = true ∧ above v.ctl.act g'.ctrl.actThr = true ∧ v.active = true ∧ v.stopped = false) ∧
    (∀ v ∈ g.views, ∃ w ∈ g'.views, w.oid = v.oid) := by
  have conv : ∀ v ∈ g.views, ∃ w ∈ g'.views, w.oid = v.oid ∧ w.kind = v.kind ∧ w.active = v.active ∧ w.stopped = v.stopped ∧ w.ctl.act.val = v.ctl.act.val := by
    intro v hv'
    refine ⟨if v.oid = oid then f v else v, by rw [hv]; exact List.mem_map.2 ⟨v, hv', rfl⟩, ?_⟩
    split
    · exact hf v
    · exact ⟨rfl, rfl, rfl, rfl, rfl⟩
  constructor
  · obtain ⟨v, hv', h1, h2, h3, h4, h5⟩ := h
    obtain ⟨w, hw, e1, e2, e3, e4, e5⟩ := conv v hv'
    refine ⟨w, hw, by rw [e1, h1], by rw [e2, h2], ?_, by rw [e3, h4], by rw [e4, h5]⟩
    rw [above_eq] at h3 ⊢
    rw [e5, hc]
    exact h3
  · intro v hv'
    obtain ⟨w, hw, e, -⟩ := conv v hv'
    exact ⟨w, hw, e⟩

theorem keeps_same {g₀ g g' : G} {p oid : Nat} {f : V → V} (h : Keeps g₀ p g) (hv : g'.views = (onView g oid f).views)
    (hf : ∀ v, (f v).oid = v.oid ∧ (f v).kind = v.kind ∧ (f v).active = v.active ∧ (f v).stopped = v.stopped ∧ (f v).ctl.act.val = v.ctl.act.val)
    (hc : g'.ctrl.actThr.val = g.ctrl.actThr.val) (hw : Wf g') (hd : g'.dead = g.dead) (hn : g'.newly = g.newly)
    (ht : g'.took = g.took) : Keeps g₀ p g' := by
  obtain ⟨k1, k2⟩ := keeps_view hv hf hc h.view
  exact keeps_more (l := []) h hw k1 k2 hd (by rw [hn, List.append_nil]) (Or.inl rfl) [] (fun _ h => absurd h List.not_mem_nil) (by rw [ht]; simp)

theorem onView_id (g : G) : (onView g 0 id).views = g.views := by
  unfold onView
  simp

theorem keeps_step {A : Arith} {g₀ g : G} {p : Nat} {op : Op} (h : Keeps g₀ p g) (hok : Ok g op) (hq : Quiet op)
    (hng : ∀ v, op ≠ .injectGroup v) : Keeps g₀ p (step A g op) := by
  have hwf : Wf (step A g op) := wf_step h.wf hok
  cases op with
  | load v => exact hq.elim
  | start n => exact hq.elim
  | inject n v =>
    obtain ⟨l, hl, -, e⟩ := inject_eq n g v
    obtain ⟨e1, e2, e3⟩ := e _ rfl
    have hm : ∀ u ∈ g.views, u ∈ (inject n g v).views := fun u hu => by
      rw [inject_views]; exact List.mem_append_left _ hu
    obtain ⟨u, hu, hu1, hu2⟩ := h.view
    refine keeps_more h hwf ⟨u, hm u hu, hu1, ?_⟩ (fun u hu => ⟨u, hm u hu, rfl⟩) e2 e1 ?_ _ ?_ e3
    · have : (step A g (.inject n v)).ctrl = g.ctrl := inject_ctrl n g v
      rw [this]
      exact hu2
    · rcases hl with hl | hl
      · exact Or.inl hl
      · refine Or.inr ?_
        have : (step A g (.inject n v)).ctrl = g.ctrl := inject_ctrl n g v
        rw [this]
        exact hl.2
    · intro y hy
      split at hy
      · obtain ⟨i, -, hy⟩ := List.mem_flatMap.1 hy
        have e := (take_oid hy).1
        refine ⟨?_, _, ?_, e⟩
        · rw [e, ← hu1]
          exact Ne.symm (hok.1 u hu).1
        · show _ ∈ (inject n g v).views
          rw [inject_views]
          simp
      · exact absurd hy List.not_mem_nil
  | injectGroup v => exact absurd rfl (hng v)
  | injectExisting n old v =>
    obtain ⟨l, hl, e⟩ := injectExisting_eq A n g old v
    have e : step A g (.injectExisting n old v) = _ := e
    rw [e] at hwf ⊢
    dsimp only at hwf ⊢
    obtain ⟨k1, k2⟩ := keeps_view (g := g) (g' := { onView g old.oid (again A n v) with ctrl := g.ctrl.again A, newly := g.newly ++ l, took := (onView g old.oid (again A n v)).took ++ l.flatMap (jobsOf { onView g old.oid (again A n v) with ctrl := g.ctrl.again A, newly := g.newly ++ l }) }) (oid := old.oid) (f := again A n v) rfl (fun u => ⟨rfl, rfl, rfl, rfl, (again_fields A n v u).2.2.2.2.2.2.1⟩) rfl h.view
    refine keeps_more (l := l) h hwf k1 k2 rfl rfl ?_ [] (fun _ h => absurd h List.not_mem_nil) ?_
    · rcases hl with hl | hl
      · exact Or.inl hl
      · exact Or.inr hl.2
    · simp only [List.append_nil]
      rfl
  | modGroup m x =>
    refine keeps_same (oid := 0) (f := id) h (by rw [onView_id]; rfl) (fun v => ⟨rfl, rfl, rfl, rfl, rfl⟩) ?_ hwf rfl rfl rfl
    exact modGroup_val A g m .actThr x
  | setGroup m x =>
    refine keeps_same (oid := 0) (f := id) h (by rw [onView_id]; rfl) (fun v => ⟨rfl, rfl, rfl, rfl, rfl⟩) ?_ hwf rfl rfl rfl
    exact setGroup_val A g m .actThr x
  | modView oid m x => exact keeps_same h rfl (fun v => ⟨rfl, rfl, rfl, rfl, (mod_val A v.ctl m x).1⟩) rfl hwf rfl rfl rfl
  | setView oid m x => exact keeps_same h rfl (fun v => ⟨rfl, rfl, rfl, rfl, (set_val A v.ctl m x).1⟩) rfl hwf rfl rfl rfl
  | invalidate obj => exact hq.elim
  | stop oid => exact hq.elim
  | update o t n => exact hq.elim

theorem keeps_run {A : Arith} {g₀ : G} {p : Nat} : ∀ {ops : List Op} {g : G}, Keeps g₀ p g → Oks A g ops → (∀ op ∈ ops, Quiet op) →
    (∀ op ∈ ops, ∀ v, op ≠ .injectGroup v) → Keeps g₀ p (run A g ops)
  | [], _, h, _, _, _ => h
  | op :: ops, g, h, hk, hq, hng => by
    rw [run_cons]
    exact keeps_run (keeps_step h hk.1 (hq op List.mem_cons_self) (hng op List.mem_cons_self)) hk.2 (fun o ho => hq o (List.mem_cons_of_mem _ ho)) fun o ho => hng o (List.mem_cons_of_mem _ ho)

/-- A program that joins hears the same. -/
theorem joins {g₀ g : G} {p : Nat} {now : Int} {q : V} (h : Keeps g₀ p g) (hok : Ok g (.inject now q)) (hk : q.kind = .program)
    (ha : isActivePgm g.ctrl q = true) : received g₀ (inject now g q) q.oid = received g₀ (inject now g q) p := by
  have hwf : Wf (inject now g q) := wf_step (A := exact) h.wf hok
  have hp := keeps_step (A := exact) h hok trivial (fun v e => by cases e)
  have hp : Keeps g₀ p (inject now g q) := hp
  obtain ⟨j, j1, j2, -⟩ := hp.jobs
  rw [received_eq j1, received_eq j1, j2]
  obtain ⟨l, hl, -, e⟩ := inject_eq now g q
  obtain ⟨e1, e2, e3⟩ := e _ rfl
  obtain ⟨k, k1, -, k3⟩ := h.jobs
  rw [j1, k1] at e3
  have hj : j = k ++ (if (q.kind.controlled && isActivePgm g.ctrl q && takesPast q.kind) = true then g.newly.flatMap (take g.dead { q with ijt := now, active := q.kind.controlled && isActivePgm g.ctrl q }) else []) ++ l.flatMap (jobsOf (inject now g q)) := by
    rw [List.append_assoc, List.append_assoc] at e3
    have := List.append_cancel_left e3
    rw [this, List.append_assoc]
  have hon : g.ctrl.on = true := by
    unfold isActivePgm at ha
    simp only [Bool.and_eq_true] at ha
    exact ha.2
  have hact : (q.kind.controlled && isActivePgm g.ctrl q) = true := by rw [hk, ha]; rfl
  rw [if_pos (by rw [hact, hk]; rfl), hact] at hj
  rw [hj, toward_append, toward_append, toward_nil (l := k), List.nil_append, e1, heard_append, e2]
  · congr 1
    · have : g.newly.flatMap (take g.dead { q with ijt := now, active := true }) = g.newly.flatMap fun x => if g.dead x.2 then [] else [(q.oid, x.1)] := by
        congr 1
        funext x
        unfold take
        have hs : q.stopped = false := hok.2.2
        rw [hs]
        cases g.dead x.2 <;> simp
      rw [this]
      unfold toward
      rw [List.filter_eq_self.2, flat_heard]
      intro y hy
      obtain ⟨x, -, hy⟩ := List.mem_flatMap.1 hy
      split at hy
      · exact absurd hy List.not_mem_nil
      · rw [List.mem_singleton] at hy
        simp [hy]
    · have hq : ({ q with ijt := now, active := true } : V) ∈ (inject now g q).views := by
        rw [inject_views, hact]; simp
      have hh : Hears (inject now g q) { q with ijt := now, active := true } := by
        refine ⟨?_, by (show q.kind.takes = true; rw [hk]; rfl), ?_, rfl, hok.2.2⟩
        · rw [inject_ctrl]
          unfold Ctrl.on at hon
          simp only [Bool.and_eq_true] at hon
          exact hon.2
        · rw [inject_ctrl]
          unfold isActivePgm at ha
          simp only [Bool.and_eq_true] at ha
          exact ha.1
      have := toward_jobs hwf hq hh l
      rw [e2] at this
      exact this
  · intro x hx e
    obtain ⟨v, hv, e'⟩ := k3 x hx
    exact (hok.1 v hv).1 (by rw [← e', e])

end Verif.Cycle
