import Verif.Cycle.Given
/-!
# C96 to C101
-/
namespace Verif.Cycle
open Verif.F32 Verif.ViewCtl

deriving instance DecidableEq for Verif.ViewCtl.Chan, Verif.ViewCtl.Res, Verif.ViewCtl.View, V

instance (g : G) (op : Op) : Decidable (Ok g op) := by cases op <;> unfold Ok <;> infer_instance
instance decOks (A : Arith) : (ops : List Op) → (g : G) → Decidable (Oks A g ops)
  | [], _ => isTrue trivial
  | _ :: ops, _ => @instDecidableAnd _ _ _ (decOks A ops _)
instance (A : Arith) (ops : List Op) (g : G) : Decidable (Oks A g ops) := decOks A ops g
instance (g : G) : Decidable (On g) := by unfold On; infer_instance
instance (g : G) (v : V) : Decidable (Active g v) := by unfold Active; infer_instance
instance (g : G) (v : V) : Decidable (Visible g v) := by unfold Visible; infer_instance
instance (g : G) (v : V) : Decidable (Salient g v) := by unfold Salient; infer_instance
instance (A : Arith) (g : G) (o : Order) : Decidable (Sees A g o) := by unfold Sees; infer_instance
instance (A : Arith) (g : G) (op : Op) : Decidable (Calm A g op) := by cases op <;> unfold Calm <;> infer_instance
instance (A : Arith) (g : G) (op : Op) : Decidable (VCalm A g op) := by cases op <;> unfold VCalm <;> infer_instance
instance (op : Op) : Decidable (Quiet op) := by cases op <;> unfold Quiet <;> infer_instance
instance decEach (A : Arith) (P : G → Op → Prop) [∀ g op, Decidable (P g op)] : (ops : List Op) → (g : G) → Decidable (Each A P g ops)
  | [], _ => isTrue trivial
  | _ :: ops, _ => @instDecidableAnd _ _ _ (decEach A P ops _)
instance (A : Arith) (P : G → Op → Prop) [∀ g op, Decidable (P g op)] (ops : List Op) (g : G) : Decidable (Each A P g ops) := decEach A P ops g

theorem oks_append {A : Arith} {g : G} {xs ys : List Op} : Oks A g (xs ++ ys) ↔ Oks A g xs ∧ Oks A (run A g xs) ys := by
  rw [oks_each, oks_each, oks_each, Each.append]

/-! ## C96 -/

/-- C96, for the values other than the thresholds of c-saliency and c-activation. Where the claim is about
c-saliency and c-activation themselves, no existing object is injected between the updates. -/
theorem C96_requests_partial (b : Begin) (pre : List Op) (o : Order) (t n : Int) (ops : List Op) (o' : Order)
    (t' n' : Int) (m : Member) (h : ∀ op ∈ ops, ∀ o t n, op ≠ .update o t n)
    (hm : m ≠ .cSlnThr ∧ m ≠ .cActThr)
    (he : ∀ op ∈ ops, ∀ n old v, op = .injectExisting n old v → m ≠ .cAct ∧ m ≠ .cSln) :
    let g₀ := run exact b.group (pre ++ [.update o t n])
    let g := run exact g₀ (ops ++ [.update o' t' n'])
    let rs := requests (value g₀ m) m ops
    value g m = if rs = [] then value g₀ m else clamp (value g₀ m + rs.sum / rs.length) := by
  intro g₀ g rs
  have hidle : Idle (g₀.ctrl.get m) := by
    show Idle ((run exact b.group (pre ++ [.update o t n])).ctrl.get m)
    rw [run_snoc]
    show Idle ((update exact o t n _).ctrl.get m)
    rw [(update_updated exact o t n _).ctrl]
    cases m <;> first | exact updateThr_idle exact _ | exact absurd rfl hm.1 | exact absurd rfl hm.2
  obtain ⟨p1, p2, p3⟩ := pending (m := m) (g := g₀) h he
  have hg : value g m = (((run exact g₀ ops).ctrl.get m).updateThr exact).val := by
    show value (run exact g₀ (ops ++ [.update o' t' n'])) m = _
    rw [run_snoc]
    show value (update exact o' t' n' _) m = _
    rw [value_update]
    cases m <;> first | rfl | exact absurd rfl hm.1 | exact absurd rfl hm.2
  rw [hg]
  rw [hidle.1, zero_add] at p2
  rw [hidle.2, Nat.zero_add] at p3
  unfold Chan.updateThr
  by_cases hr : rs = []
  · have hr' : requests (value g₀ m) m ops = [] := hr
    rw [if_pos hr, p3, hr', if_neg (by simp)]
    exact p1
  · have hl : 0 < (requests (value g₀ m) m ops).length := List.length_pos_iff.2 hr
    rw [if_neg hr, p3, if_pos hl]
    show clamp (((run exact g₀ ops).ctrl.get m).val + ((run exact g₀ ops).ctrl.get m).acc / _) = _
    rw [p1, p2]
    rfl

private def first : Order := ⟨false, false⟩
private def late : Order := ⟨true, true⟩
/-- Thresholds of 1/2, not c-active. -/
private def half : Begin := ⟨1/2, 1/2, 1/2, 1, 0, 1/2, 1/2⟩
/-- The same, c-active. -/
private def awake : Begin := ⟨1/2, 1/2, 1/2, 1, 1, 1/2, 1/2⟩

/-- C96 fails: the threshold of c-activation (and that of c-saliency) never changes. -/
theorem C96_requests_violated : ¬ C96_full ∧
    (let ops : List Op := [.update first 10 10, .setGroup .cActThr (1/4), .update first 20 20, .update first 30 30]
     value (run exact awake.group ops) .cActThr = 1/2) ∧
    (let ops : List Op := [.update first 10 10, .modGroup .cSlnThr (1/4), .update first 20 20, .update first 30 30]
     value (run exact awake.group ops) .cSlnThr = 1/2) := by
  refine ⟨fun h => ?_, by decide +kernel, by decide +kernel⟩
  have := h awake [] first 10 10 [.setGroup .cActThr (1/4)] first 20 20 .cActThr (by
    intro op hop o t n e
    simp only [List.mem_singleton] at hop
    rw [hop] at e
    cases e)
  revert this
  decide +kernel

theorem C96_nonvacuous :
    (let ops : List Op := [.update first 10 10, .setGroup .actThr (1/4), .modGroup .actThr (1/4), .modGroup .cAct (-1), .update first 20 20]
     value (run exact awake.group ops) .actThr = 1/2 + ((1/4 - 1/2) + 1/4) / 2 ∧ value (run exact awake.group ops) .cAct = 0) ∧
    (let ops : List Op := [.update first 10 10, .setGroup .actThr (1/4), .setGroup .actThr 1, .update first 20 20]
     value (run exact awake.group ops) .actThr = 5/8) := by
  decide +kernel

/-! ## C97 -/

theorem controlled_of {k : Kind} (h : Controlled k) : k.controlled = true := by
  rcases h with h | h | h | h | h <;> rw [h] <;> rfl

theorem takes_iff (k : Kind) : TakesInputs k ↔ k.takes = true := by
  cases k with
  | null b => cases b <;> decide
  | _ => decide

/-- C97, for histories in which no program's activation lies between the old and the new threshold of
activation, and in which the group stays as it is with regard to being c-active and c-salient when it skips
programs and when an existing object is injected. Then it even holds for views that are skipped. -/
theorem C97_activation_partial (A : Arith) (b : Begin) (ops : List Op) (o : Order) (t n : Int)
    (hok : Oks A b.group ops) (hc : Each A (Calm A) b.group (ops ++ [.update o t n])) :
    let g := run A b.group (ops ++ [.update o t n])
    ∀ v ∈ g.views, Controlled v.kind → (v.active = true ↔ Active g v) := by
  intro g v hv hk
  have hk := controlled_of hk
  have h : ActInv g := act_run (act_begin b) (oks_append.2 ⟨hok, trivial, trivial⟩) hc
  rw [h v hv hk, isActive_iff]

/-- A history against C97. -/
private def Bad97 (b : Begin) (ops : List Op) (o : Order) (t n : Int) : Prop :=
  Oks exact b.group ops ∧
  let g₀ := run exact b.group ops
  let g := run exact b.group (ops ++ [.update o t n])
  ∃ v ∈ g.views, Controlled v.kind ∧ (∀ u ∈ g₀.views, u.oid = v.oid → u.ijt < t) ∧ ¬ (v.active = true ↔ Active g v)

instance (b : Begin) (ops : List Op) (o : Order) (t n : Int) : Decidable (Bad97 b ops o t n) := by
  unfold Bad97; infer_instance

private def ctl (sln act vis : Rat) : View :=
  { sln := { val := sln }, act := { val := act }, vis := { val := vis }, res := { val := .inf } }

private def pgm (oid : Nat) (k : Kind) (sln act : Rat) : V :=
  { oid := oid, obj := oid, kind := k, ctl := ctl sln act 0, ijt := 0, sync := .once, cov := false }

private def grp (oid : Nat) (sln vis : Rat) : V :=
  { oid := oid, obj := oid, kind := .group, ctl := ctl sln 0 vis, ijt := 0, sync := .once, cov := false }

/-- C97 fails in each of these ways: the threshold rises above the activation of an active program, which stays
active; it sinks below the activation of a program, which is not activated; the compiler evaluates
`update_c_act()` before `get_c_act()`, and no program is activated when the group becomes c-active; the group
becomes c-active while it skips a program, which is not activated at the next update either; and the group
becomes c-active when an existing object is injected. -/
theorem C97_activation_violated : ¬ C97_full ∧
    Bad97 awake [.inject 1 (pgm 1 .program 0 (3/4)), .setGroup .actThr 1] first 10 10 ∧
    Bad97 awake [.inject 1 (pgm 1 .program 0 (1/4)), .setGroup .actThr 0] first 10 10 ∧
    Bad97 half [.inject 1 (pgm 1 .program 0 (3/4)), .setGroup .cAct 1] late 10 10 ∧
    Bad97 half [.setGroup .cAct 1, .inject 12 (pgm 1 .program 0 (3/4)), .update first 10 13] first 20 20 ∧
    Bad97 half [.inject 1 (pgm 1 .program 0 (3/4)), .inject 1 (pgm 2 .other 0 0), .setGroup .cAct 1,
      .injectExisting 5 { pgm 2 .other 0 0 with ijt := 1 } { pgm 2 .other 0 0 with oid := 3 }] first 10 10 := by
  have h1 : Bad97 awake [.inject 1 (pgm 1 .program 0 (3/4)), .setGroup .actThr 1] first 10 10 := by decide +kernel
  refine ⟨fun h => ?_, h1, by decide +kernel, by decide +kernel, by decide +kernel, by decide +kernel⟩
  obtain ⟨hok, v, hv, hk, ht, hn⟩ := h1
  exact hn (h exact awake _ first 10 10 hok v hv hk ht)

/-- A history that meets the conditions: a program is activated, the group ceases to be c-active and becomes so
again, the threshold changes. -/
theorem C97_nonvacuous :
    let ops : List Op := [.load (pgm 1 .program 0 (3/4)), .load (pgm 2 .program 0 (1/4)), .start 0, .update first 10 10,
      .setView 2 .act 1, .update first 20 20, .setGroup .cAct 0, .update first 30 30, .setGroup .actThr (5/8), .modView 1 .act (-1),
      .update first 40 40, .setGroup .cAct 1]
    Oks exact awake.group ops ∧ Each exact (Calm exact) awake.group (ops ++ [.update first 50 50]) ∧
    (run exact awake.group (ops.take 4)).views.map (·.active) = [true, false] ∧
    (run exact awake.group (ops.take 6)).views.map (·.active) = [true, true] ∧
    (run exact awake.group (ops.take 8)).views.map (·.active) = [false, false] ∧
    (run exact awake.group (ops ++ [.update first 50 50])).views.map (·.active) = [false, true] := by
  decide +kernel

/-! ## C98 -/

/-- C98, for histories in which no group's visibility lies between the old and the new threshold, in which the
group stays as it is with regard to being c-active and c-salient when it skips views of groups and when an
existing object is injected, in which no visible view of a group is deleted while the group lives, and in which
a group is not injected with a visibility above the threshold unless its being salient agrees with this group's
being c-active. -/
theorem C98_viewing_partial (A : Arith) (b : Begin) (ops : List Op) (o : Order) (t n : Int)
    (hok : Oks A b.group ops) (hc : Each A (VCalm A) b.group (ops ++ [.update o t n])) :
    let g := run A b.group (ops ++ [.update o t n])
    ∀ obj, g.dead obj = false →
      ∀ c, g.viewing obj = some c ↔ ∃ v ∈ g.views, v.kind = .group ∧ v.obj = obj ∧ Visible g v ∧ v.cov = c :=
  vis_run (wf_begin b) (vis_begin b) (oks_append.2 ⟨hok, trivial, trivial⟩) hc

/-- A history against C98: an entry for a group that has no visible view. -/
private def Stale (b : Begin) (ops : List Op) (o : Order) (t n : Int) (obj : Nat) : Prop :=
  Oks exact b.group ops ∧
  let g₀ := run exact b.group ops
  let g := run exact b.group (ops ++ [.update o t n])
  g.dead obj = false ∧ (∀ u ∈ g₀.views, u.obj = obj → u.ijt < t) ∧ g.viewing obj ≠ none ∧
    ∀ v ∈ g.views, v.kind = .group → v.obj = obj → ¬ Visible g v

instance (b : Begin) (ops : List Op) (o : Order) (t n : Int) (obj : Nat) : Decidable (Stale b ops o t n obj) := by
  unfold Stale; infer_instance

/-- C98 fails in each of these ways: the threshold rises above the visibility of a group; a visible view is
deleted for want of resilience; a group is injected into a group that is not c-active; the compiler evaluates
`update_c_act()` before `get_c_act()` when the group ceases to be c-active. -/
theorem C98_viewing_violated : ¬ C98_full ∧
    Stale awake [.injectGroup (grp 1 1 (3/4)), .setGroup .visThr 1] first 10 10 1 ∧
    Stale awake [.injectGroup { grp 1 1 1 with ctl := { ctl 1 0 1 with res := { val := .fin 1 } } }] first 10 10 1 ∧
    Stale half [.injectGroup (grp 1 1 1)] first 10 10 1 ∧
    Stale awake [.injectGroup (grp 1 1 1), .setGroup .cAct 0] late 10 10 1 := by
  have h1 : Stale awake [.injectGroup (grp 1 1 (3/4)), .setGroup .visThr 1] first 10 10 1 := by decide +kernel
  refine ⟨fun h => ?_, h1, by decide +kernel, by decide +kernel, by decide +kernel⟩
  obtain ⟨hok, hd, ht, hs, hn⟩ := h1
  have := h exact awake _ first 10 10 hok 1 hd ht
  obtain ⟨c, hc⟩ := Option.ne_none_iff_exists'.1 hs
  obtain ⟨v, hv, hk, ho, hvis, -⟩ := (this c).1 hc
  exact hn v hv hk ho hvis

theorem C98_nonvacuous :
    let ops : List Op := [.load (grp 1 0 1), .load { grp 2 0 0 with cov := true }, .start 0, .update first 10 10, .setView 2 .vis 1,
      .injectGroup { grp 3 1 1 with cov := true }, .update first 20 20, .modView 1 .vis (-1), .setView 3 .res 1, .modView 3 .vis (-1), .update first 30 30]
    Oks exact awake.group ops ∧ Each exact (VCalm exact) awake.group (ops ++ [.update first 40 40]) ∧
    ([1, 2, 3].map (run exact awake.group (ops.take 4)).viewing = [some false, none, none]) ∧
    ([1, 2, 3].map (run exact awake.group (ops.take 7)).viewing = [some false, some true, some true]) ∧
    ([1, 2, 3].map (run exact awake.group (ops ++ [.update first 40 40])).viewing = [none, some true, none]) := by
  decide +kernel

/-! ## C99 -/

/-- C99, under the conditions of C97 and for views whose saliency does not lie between the old and the new
threshold of saliency. -/
theorem C99_inputs_partial (A : Arith) (b : Begin) (ops : List Op) (o : Order) (t n : Int)
    (hok : Oks A b.group ops) (hc : Each A (Calm A) b.group (ops ++ [.update o t n])) :
    let g₀ := run A b.group ops
    let g := run A b.group (ops ++ [.update o t n])
    ∀ p ∈ g.views, p.stopped = false →
      ∀ i₀ ∈ g₀.views, i₀.ijt < t → (value g₀ .slnThr < i₀.ctl.sln.val ↔ value g .slnThr < i₀.ctl.sln.val) →
      ∀ i ∈ g.views, i.oid = i₀.oid →
        ((TakesInputs p.kind ∧ Active g p ∧ Salient g i ∧
            (¬ Salient g₀ i₀ ∨ i.sync = .hold ∨ i.sync = .always)) →
          given g p.oid i.oid = given g₀ p.oid i.oid + 1) ∧
        (¬ (TakesInputs p.kind ∧ Active g p ∧ Salient g i ∧
            (¬ Salient g₀ i₀ ∨ i.sync = .hold ∨ i.sync = .always)) →
          given g p.oid i.oid = given g₀ p.oid i.oid) := by
  intro g₀ g p hp hst i₀ hi₀ ht hsal i hi e
  have hok' : Oks A b.group (ops ++ [.update o t n]) := oks_append.2 ⟨hok, trivial, trivial⟩
  have hinv : ActInv g := act_run (act_begin b) hok' hc
  have hw : Wf g₀ := wf_run (wf_begin b) hok
  have hw' : Wf g := wf_run (wf_begin b) hok'
  have hg : g = update A o t n g₀ := run_snoc A b.group ops (.update o t n)
  have u := update_updated A o t n g₀
  rw [← hg] at u
  obtain ⟨v, hv, k⟩ := mem_updated u hi
  have : v = i₀ := eq_of_key hw.oids hv hi₀ (by rw [← k.oid, e])
  subst this
  obtain ⟨htt, hsln⟩ := k.touched ht
  have gu := given_update (A := A) (o := o) (t := t) (n := n) hw (p := p) (hg ▸ hp) (hg ▸ hw') hi₀ k.live
  rw [← hg] at gu
  rw [e]
  rw [takes_iff]
  by_cases htk : p.kind.takes = true
  swap
  · exact ⟨fun h => absurd h.1 htk, fun _ => gu.2 fun h => htk h.1.2.1⟩
  have hcon : p.kind.controlled = true := by
    revert htk; cases p.kind <;> intro h <;> first | rfl | cases h
  have hp' := hinv p hp hcon
  have hears : Hears g p ↔ Active g p := by
    rw [← isActive_iff, ← hp']
    constructor
    · intro h; exact h.2.2.2.1
    · intro h
      have h2 := h
      rw [hp'] at h2
      unfold isActivePgm Ctrl.on at h2
      simp only [Bool.and_eq_true] at h2
      exact ⟨h2.2.2, htk, h2.1, h, hst⟩
  have hthr : value g .slnThr = (g₀.ctrl.updated A).slnThr.val := by unfold value; rw [u.ctrl]; rfl
  have hsn : Active g p → ((updateSaliency A (gstate A o g₀.ctrl) (g₀.ctrl.updated A) n v).2 = true ↔
      Salient g i ∧ (¬ Salient g₀ v ∨ i.sync = .hold ∨ i.sync = .always)) := by
    intro ha
    rw [updSal_snd]
    have hsl : (gstate A o g₀.ctrl).isSln = true := by
      have := ha.2
      rw [← on_iff, u.ctrl, ← is_on (o := o)] at this
      simp only [Bool.and_eq_true] at this
      exact this.2
    have hf : (gstate A o g₀.ctrl).formerSlnThr = (g₀.ctrl.updated A).slnThr.val := rfl
    unfold Salient
    rw [hsal, hthr, hsln, k.sync, hf, hsl]
    constructor
    · rintro ⟨-, h1, h2 | h2 | h2⟩
      · exact ⟨h1, Or.inr (Or.inl h2)⟩
      · exact ⟨h1, Or.inr (Or.inr h2)⟩
      · exact ⟨h1, Or.inl h2⟩
    · rintro ⟨h1, h2 | h2 | h2⟩
      · exact ⟨rfl, h1, Or.inr (Or.inr h2)⟩
      · exact ⟨rfl, h1, Or.inl h2⟩
      · exact ⟨rfl, h1, Or.inr (Or.inl h2)⟩
  constructor
  · rintro ⟨-, ha, hrest⟩
    exact gu.1 ⟨hears.2 ha, htt, (hsn ha).2 hrest⟩
  · intro hn
    refine gu.2 fun h => hn ?_
    have ha := hears.1 h.1
    exact ⟨htk, ha, (hsn ha).1 h.2.2⟩

/-- C99 fails: when the threshold of saliency sinks below the saliency of a view, no program is given the
view. When it rises, a view that rises with it is given to the programs again, though it was salient before. -/
theorem C99_inputs_violated : ¬ C99_full ∧
    (let ops : List Op := [.inject 1 (pgm 1 .program 0 1), .inject 1 (pgm 2 .other (1/4) 0), .setGroup .slnThr 0, .update first 10 10]
     given (run exact awake.group ops) 1 2 = 0 ∧ Salient (run exact awake.group ops) { pgm 2 .other (1/4) 0 with ijt := 1 } ∧
       { pgm 2 .other (1/4) 0 with ijt := 1 } ∈ (run exact awake.group ops).views) ∧
    (let ops : List Op := [.inject 1 (pgm 1 .program 0 1), .inject 1 (pgm 2 .other (5/8) 0), .setGroup .slnThr (3/4), .setView 2 .sln 1, .update first 10 10]
     given (run exact awake.group ops) 1 2 = 2) := by
  refine ⟨fun h => ?_, by decide +kernel, by decide +kernel⟩
  have := h exact awake [.inject 1 (pgm 1 .program 0 1), .inject 1 (pgm 2 .other (1/4) 0), .setGroup .slnThr 0] first 10 10
    (by decide +kernel) { pgm 1 .program 0 1 with ijt := 1, active := true } (by decide +kernel) rfl
    { pgm 2 .other (1/4) 0 with ijt := 1 } (by decide +kernel) (by decide) { pgm 2 .other (1/4) 0 with ijt := 1 } (by decide +kernel) rfl
  exact absurd (this.1 (by decide +kernel)) (by decide +kernel)

theorem C99_nonvacuous :
    let ops : List Op := [.inject 1 (pgm 1 .program 0 1), .inject 1 (pgm 2 .other (1/4) 0), .inject 1 { pgm 3 .other 1 0 with sync := .hold },
      .update first 10 10, .setView 2 .sln 1]
    Oks exact awake.group ops ∧ Each exact (Calm exact) awake.group (ops ++ [.update first 20 20]) ∧
    given (run exact awake.group ops) 1 2 = 0 ∧ given (run exact awake.group (ops ++ [.update first 20 20])) 1 2 = 1 ∧
    given (run exact awake.group ops) 1 3 = 2 ∧ given (run exact awake.group (ops ++ [.update first 20 20])) 1 3 = 3 := by
  decide +kernel

/-! ## C100 -/

/-- C100, under the conditions of C97 up to the update, when no group is injected in the period. -/
theorem C100_latecomers_partial (A : Arith) (b : Begin) (pre : List Op) (o : Order) (t n : Int) (ops : List Op) (now : Int) (q : V)
    (hq : ∀ op ∈ ops, Quiet op) (hng : ∀ op ∈ ops, ∀ v, op ≠ .injectGroup v)
    (hok : Oks A b.group (pre ++ .update o t n :: ops ++ [.inject now q]))
    (hc : Each A (Calm A) b.group (pre ++ [.update o t n])) :
    let g₀ := run A b.group pre
    let g₁ := run A b.group (pre ++ [.update o t n])
    let g := run A b.group (pre ++ .update o t n :: ops ++ [.inject now q])
    ∀ p ∈ g₁.views, TakesInputs p.kind → p.stopped = false → Active g₁ p → q.kind = .program → Active g q →
      received g₀ g q.oid = received g₀ g p.oid := by
  intro g₀ g₁ g p hp htk hst hact hqk hqa
  rw [takes_iff] at htk
  have hsplit : pre ++ .update o t n :: ops ++ [.inject now q] = (pre ++ [.update o t n]) ++ (ops ++ [.inject now q]) := by simp
  rw [hsplit, oks_append] at hok
  obtain ⟨hok1, hok⟩ := hok
  obtain ⟨hok2, hok3, -⟩ := oks_append.1 hok
  have hinv : ActInv g₁ := act_run (act_begin b) hok1 hc
  have hw₁ : Wf g₁ := wf_run (wf_begin b) hok1
  have hg₁ : g₁ = update A o t n g₀ := run_snoc A b.group pre (.update o t n)
  have u := update_updated A o t n g₀
  rw [← hg₁] at u
  have hcon : p.kind.controlled = true := by
    revert htk; cases p.kind <;> intro h <;> first | rfl | cases h
  have ha := (isActive_iff g₁ p).2 hact
  have hpa : p.active = true := by rw [hinv p hp hcon, ha]
  unfold isActivePgm Ctrl.on at ha
  simp only [Bool.and_eq_true] at ha
  have hk : Keeps g₀ p.oid g₁ := by
    refine ⟨hw₁, ⟨g₁.newly.flatMap (jobsOf g₁), u.took, ?_, ?_⟩, p, hp, rfl, htk, ha.1, hpa, hst⟩
    · exact toward_jobs hw₁ hp ⟨ha.2.2, htk, ha.1, hpa, hst⟩ _
    · intro x hx
      obtain ⟨i, -, hx⟩ := List.mem_flatMap.1 hx
      exact jobs_oid hx
  have hk2 : Keeps g₀ p.oid (run A g₁ ops) := keeps_run hk hok2 hq hng
  have hg : g = inject now (run A g₁ ops) q := by
    show run A b.group (pre ++ .update o t n :: ops ++ [.inject now q]) = _
    rw [hsplit, run_append, run_snoc]
    rfl
  rw [hg] at hqa ⊢
  refine joins hk2 hok3 hqk ?_
  rw [← isActive_iff, inject_ctrl] at hqa
  exact hqa

/-- C100 fails: a group that is injected in the period is given to the programs that are there, not to one that
is injected afterwards. -/
theorem C100_latecomers_violated : ¬ C100_full ∧
    (let ops : List Op := [.inject 1 (pgm 1 .program 0 1), .update first 10 10, .injectGroup (grp 2 1 0), .inject 11 (pgm 3 .program 0 1)]
     (run exact awake.group ops).took = [(1, 2)]) := by
  refine ⟨fun h => ?_, by decide +kernel⟩
  have := h exact awake [.inject 1 (pgm 1 .program 0 1)] first 10 10 [.injectGroup (grp 2 1 0)] 11 (pgm 3 .program 0 1)
    (by intro op hop; rw [List.mem_singleton] at hop; rw [hop]; trivial) (by decide +kernel)
    { pgm 1 .program 0 1 with ijt := 1, active := true } (by decide +kernel) (Or.inl rfl) rfl (by decide +kernel) rfl (by decide +kernel)
  revert this
  decide +kernel

theorem C100_nonvacuous :
    let pre : List Op := [.inject 1 (pgm 1 .program 0 1), .inject 1 { pgm 2 .other 1 0 with sync := .hold }, .inject 2 (pgm 5 .other 0 0), .setView 5 .sln 1]
    let ops : List Op := [.inject 11 (pgm 3 .other 1 0), .inject 12 (pgm 6 .other 0 0)]
    (∀ op ∈ ops, Quiet op) ∧ (∀ op ∈ ops, ∀ v, op ≠ .injectGroup v) ∧
    Oks exact awake.group (pre ++ .update first 10 10 :: ops ++ [.inject 13 (pgm 4 .program 1 1)]) ∧
    Each exact (Calm exact) awake.group (pre ++ [.update first 10 10]) ∧
    received (run exact awake.group pre) (run exact awake.group (pre ++ .update first 10 10 :: ops ++ [.inject 13 (pgm 4 .program 1 1)])) 4 = [2, 5, 3, 4] := by
  refine ⟨by decide +kernel, ?_, by decide +kernel, by decide +kernel, by decide +kernel⟩
  intro op hop v e
  rw [e] at hop
  simp at hop

/-! ## C101 -/

/-- C101, under the conditions of C97. -/
theorem C101_signals_partial (A : Arith) (b : Begin) (ops : List Op) (o : Order) (t n : Int)
    (hok : Oks A b.group ops) (hc : Each A (Calm A) b.group (ops ++ [.update o t n])) :
    let g₀ := run A b.group ops
    let g := run A b.group (ops ++ [.update o t n])
    ∀ v₀ ∈ g₀.views, ∀ v ∈ g.views, v.oid = v₀.oid →
      ((Signalled v.kind ∧ v₀.active = false ∧ v.active = true) →
        g.signals.count v.oid = g₀.signals.count v.oid + 1) ∧
      (¬ (Signalled v.kind ∧ v₀.active = false ∧ v.active = true) →
        g.signals.count v.oid = g₀.signals.count v.oid) := by
  intro g₀ g v₀ hv₀ v hv e
  have hok' : Oks A b.group (ops ++ [.update o t n]) := oks_append.2 ⟨hok, trivial, trivial⟩
  rw [Each.append] at hc
  have hinv₀ : ActInv g₀ := act_run (act_begin b) hok hc.1
  have hw : Wf g₀ := wf_run (wf_begin b) hok
  have hf : g₀.fresh = [] := fresh_run rfl
  have hg : g = update A o t n g₀ := run_snoc A b.group ops (.update o t n)
  have hcalm : Calm A g₀ (.update o t n) := hc.2.1
  have hinv : ActInv g := by rw [hg]; exact act_update hinv₀ hcalm
  have u := update_updated A o t n g₀
  rw [← hg] at u
  obtain ⟨w, hw', k⟩ := mem_updated u hv
  have : w = v₀ := eq_of_key hw.oids hw' hv₀ (by rw [← k.oid, e])
  subst this
  by_cases hk : Signalled v.kind
  swap
  · refine ⟨fun h => absurd h.1 hk, fun _ => ?_⟩
    have := signals_update_none (A := A) (o := o) (t := t) (n := n) hw hf hv₀ (by rw [← k.kind]; exact hk)
    rw [← hg, ← e] at this
    exact this
  have hk' : w.kind = .anti ∨ w.kind = .inputLess := by rw [← k.kind]; exact hk
  have hcon : w.kind.controlled = true := by rcases hk' with h | h <;> rw [h] <;> rfl
  have su := signals_update (A := A) (o := o) (t := t) (n := n) hw hf hv₀ hk'
  rw [← hg, ← e] at su
  have key : (touched A g₀.dead t w && (updateActivation A (gstate A o g₀.ctrl) (g₀.ctrl.updated A) w).2) = true ↔
      (w.active = false ∧ v.active = true) := by
    obtain ⟨hs, hcs⟩ := hcalm
    obtain ⟨hthr, hskip⟩ := hcs w hv₀ hcon k.live
    by_cases ht : w.ijt < t
    · rw [(k.touched ht).1, Bool.true_and, updAct_fresh_eq, (k.act ht hcon).2, updAct_active_eq, sees_was hs, is_on, hinv₀ w hv₀ hcon]
      have eabove : above w.ctl.act (g₀.ctrl.updated A).actThr = above w.ctl.act g₀.ctrl.actThr := by
        refine (above_congr ?_).symm
        rw [value_update] at hthr
        exact hthr
      unfold isActivePgm
      rw [eabove]
      cases g₀.ctrl.on <;> cases (g₀.ctrl.updated A).on <;> cases above w.ctl.act g₀.ctrl.actThr <;>
        cases above (w.ctl.act.update A) (g₀.ctrl.updated A).actThr <;> simp
    · have ht' : t ≤ w.ijt := by omega
      have : touched A g₀.dead t w = false := by
        unfold touched
        simp [ht]
      rw [this, k.skipped ht']
      simp
  constructor
  · intro h
    rw [su, if_pos (key.2 h.2)]
  · intro h
    rw [su, if_neg (fun h' => h ⟨hk, key.1 h'⟩), Nat.add_zero]

/-- C101 fails: when the threshold rises above the activation of an active input-less program, it stays active;
when its activation then rises too, it gets a second signalling job. -/
theorem C101_signals_violated : ¬ C101_full ∧
    (let ops : List Op := [.inject 1 (pgm 1 .inputLess 0 (5/8)), .setGroup .actThr (3/4), .update first 10 10, .setView 1 .act 1, .update first 20 20]
     (run exact awake.group ops).signals = [1, 1] ∧ (run exact awake.group (ops.take 1)).signals = [1]) := by
  refine ⟨fun h => ?_, by decide +kernel⟩
  have := h exact awake [.inject 1 (pgm 1 .inputLess 0 (5/8)), .setGroup .actThr (3/4), .update first 10 10, .setView 1 .act 1] first 20 20
    (by decide +kernel)
  have h2 := this { pgm 1 .inputLess 0 (5/8) with ijt := 1, active := true, ctl := { ctl 0 (5/8) 0 with act := { val := 5/8, acc := 3/8, changes := 1 } } } (by decide +kernel)
    { pgm 1 .inputLess 0 1 with ijt := 1, active := true } (by decide +kernel) rfl
  exact absurd (h2.2 (by decide)) (by decide +kernel)

theorem C101_nonvacuous :
    let ops : List Op := [.inject 1 (pgm 1 .anti 0 1), .inject 1 (pgm 2 .inputLess 0 0), .setGroup .cAct 1, .update first 10 10, .setView 2 .act 1]
    Oks exact half.group ops ∧ Each exact (Calm exact) half.group (ops ++ [.update first 20 20]) ∧
    (run exact half.group (ops.take 3)).signals = [] ∧ (run exact half.group (ops.take 4)).signals = [1] ∧
    (run exact half.group (ops ++ [.update first 20 20])).signals = [1, 2] := by
  decide +kernel

end Verif.Cycle
