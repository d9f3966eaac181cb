import Verif.Cst.Model
import Mathlib.Data.List.Perm.Basic
import Mathlib.Tactic.SplitIfs
import Mathlib.Tactic.ByContra
/-!
# C50, C51, C65: composite states
-/
namespace Verif.Cst

/-- One step of an instance being put together: the first pattern of `ax`, or else of `non`, that the
input binds to, as the program looks for it. -/
def FirstMatch {B : Type} (l : Lang B) (ax non : List Nat) (first : Bool) (b : B) (i p : Nat) (b' : B)
    (isAx : Bool) : Prop :=
  l.bind first b i p = some b' ∧
  if isAx then ∃ pre post, ax = pre ++ p :: post ∧ ∀ q ∈ pre, l.bind first b i q = none
  else (∀ q ∈ ax, l.bind first b i q = none) ∧
    ∃ pre post, non = pre ++ p :: post ∧ ∀ q ∈ pre, l.bind first b i q = none

/-- Inputs `ch` with their patterns bind one after the other, from map `b`, and use up all patterns;
inputs after the first come no later than the deadline set by the first. `greedy`: each is taken for
the first pattern it binds to. -/
def Builds {B : Type} (l : Lang B) (greedy : Bool) : List Nat → List Nat → Bool → Nat → B →
    List (Event × Nat) → Prop
  | ax, non, _, _, _, [] => ax = [] ∧ non = []
  | ax, non, first, dl, b, (e, p) :: ch =>
    (dl = 0 ∨ e.now ≤ dl) ∧
    ∃ b' isAx, l.bind first b e.inp p = some b' ∧
      (if isAx then p ∈ ax else p ∈ non) ∧
      (greedy = true → FirstMatch l ax non first b e.inp p b' isAx) ∧
      Builds l greedy (if isAx then ax.erase p else ax) (if isAx then non else non.erase p) false
        (if dl = 0 then l.fwdBefore b' else dl) b' ch

/-- A combination of inputs of the stream that makes an instance: distinct inputs, in the order of
the stream, none of which is invalidated meanwhile. -/
def Admissible {B : Type} (l : Lang B) (greedy : Bool) (ax non : List Nat) (b : B) (es : List Event)
    (ch : List (Event × Nat)) : Prop :=
  (ch.map Prod.fst).Sublist es ∧ (ch.map fun x => x.1.inp).Nodup ∧
  (∀ e ∈ es, ∀ x ∈ ch, e.dead x.1.inp = false) ∧ Builds l greedy ax non true 0 b ch

/-- The map obtained by binding inputs to patterns one after the other. -/
def replay {B : Type} (l : Lang B) : Bool → B → List (Nat × Nat) → Option B
  | _, b, [] => some b
  | first, b, (i, p) :: us => (l.bind first b i p).bind fun b' => replay l false b' us

/-- C50 in full. Every instance uses distinct inputs and every pattern once, each input
matching its pattern under the values bound by those before; every admissible
combination of inputs gets its instance. -/
def C50_full : Prop :=
  ∀ (B : Type) (l : Lang B) (ax non : List Nat) (b : B) (es : List Event),
    es.Pairwise (fun e e' => e.now ≤ e'.now) → 0 < ax.length + non.length →
    (∀ o ∈ (run l (Ctl.init ax non b) es).made,
      (o.axIns ++ o.nonIns).Nodup ∧ (o.used.map Prod.fst).Perm (o.axIns ++ o.nonIns) ∧
      (o.used.map Prod.snd).Perm (ax ++ non) ∧ replay l true b o.used = some o.binds) ∧
    (∀ ch, Admissible l false ax non b es ch →
      ∃ o ∈ (run l (Ctl.init ax non b) es).made, o.used = ch.map fun x => (x.1.inp, x.2))

/-- Two patterns, 1 and 2; input 10 fits both, inputs 11 and 12 fit pattern 1 only. -/
def pick : Lang Unit :=
  ⟨fun _ _ i p => if i = 10 ∨ ((i = 11 ∨ i = 12) ∧ p = 1) then some () else none, fun _ => some (), fun _ => 0⟩
def ev (i : Nat) : Event := ⟨0, i, fun _ => false⟩

/-- An input that fits two patterns is only tried for the first: if 10 comes before 11 the instance
made of 10 for pattern 2 and 11 for pattern 1 is missed, although it is found the other way round. -/
theorem C50_combinations_violated :
    ¬ C50_full ∧
    (run pick (Ctl.init [] [1, 2] ()) [ev 10, ev 11]).made = [] ∧
    Admissible pick false [] [1, 2] () [ev 10, ev 11] [(ev 10, 2), (ev 11, 1)] ∧
    (run pick (Ctl.init [] [1, 2] ()) [ev 11, ev 10]).made.map (·.used) = [[(11, 1), (10, 2)]] := by
  have h1 : (run pick (Ctl.init [] [1, 2] ()) [ev 10, ev 11]).made = [] := by decide
  have h2 : Admissible pick false [] [1, 2] () [ev 10, ev 11] [(ev 10, 2), (ev 11, 1)] := by
    refine ⟨by simp, by decide, by simp [ev], ?_⟩
    refine ⟨Or.inl rfl, (), false, by decide, by decide, by simp, ?_⟩
    refine ⟨Or.inl rfl, (), false, by decide, by decide, by simp, ?_⟩
    exact ⟨rfl, rfl⟩
  refine ⟨fun h => ?_, h1, h2, by decide⟩
  obtain ⟨o, ho, _⟩ := (h Unit pick [] [1, 2] () [ev 10, ev 11] (by simp [ev]) (by decide)).2 _ h2
  rw [h1] at ho
  exact absurd ho (by simp)

/-! ### Pieces -/

theorem findSome_first {α β : Type} (f : α → Option β) (pre post : List α) (p : α) (r : β)
    (h : f p = some r) (hn : ∀ q ∈ pre, f q = none) : (pre ++ p :: post).findSome? f = some r := by
  induction pre with
  | nil => simp [h]
  | cons q pre ih =>
    simp only [List.cons_append, List.findSome?_cons, hn q (by simp)]
    exact ih fun x hx => hn x (by simp [hx])

theorem bindPattern_mem {B : Type} (l : Lang B) (o : Overlay B) (i p : Nat) (ax : Bool) (b : B)
    (h : o.bindPattern l i = some (p, ax, b)) :
    (if ax then p ∈ o.axPats else p ∈ o.nonPats) ∧
    l.bind (o.axIns.length + o.nonIns.length == 0) o.binds i p = some b := by
  simp only [Overlay.bindPattern] at h
  split at h
  · rename_i r hr
    cases h
    obtain ⟨q, hq, hb⟩ := List.exists_of_findSome?_eq_some hr
    simp only [Option.map_eq_some_iff, Prod.mk.injEq] at hb
    obtain ⟨b1, hb1, rfl, rfl, rfl⟩ := hb
    exact ⟨by simpa using hq, hb1⟩
  · obtain ⟨q, hq, hb⟩ := List.exists_of_findSome?_eq_some h
    simp only [Option.map_eq_some_iff, Prod.mk.injEq] at hb
    obtain ⟨b1, hb1, rfl, rfl, rfl⟩ := hb
    exact ⟨by simpa using hq, hb1⟩

theorem bindPattern_first {B : Type} (l : Lang B) (o : Overlay B) (i p : Nat) (ax : Bool) (b : B)
    (h : FirstMatch l o.axPats o.nonPats (o.axIns.length + o.nonIns.length == 0) o.binds i p b ax) :
    o.bindPattern l i = some (p, ax, b) := by
  obtain ⟨hb, h⟩ := h
  simp only [Overlay.bindPattern]
  cases ax with
  | true =>
    rw [if_pos rfl] at h
    obtain ⟨pre, post, he, hn⟩ := h
    rw [he, findSome_first (fun p => (l.bind (o.axIns.length + o.nonIns.length == 0) o.binds i p).map
      fun b => (p, true, b)) pre post p (p, true, b) (by simp [hb]) (fun q hq => by simp [hn q hq])]
  | false =>
    simp only [Bool.false_eq_true, if_false] at h
    obtain ⟨hax, pre, post, he, hn⟩ := h
    have h0 : o.axPats.findSome? (fun p =>
        (l.bind (o.axIns.length + o.nonIns.length == 0) o.binds i p).map fun b => (p, true, b)) =
        none := by
      rw [List.findSome?_eq_none_iff]
      intro q hq
      simp [hax q hq]
    rw [h0, he]
    exact findSome_first (fun p => (l.bind (o.axIns.length + o.nonIns.length == 0) o.binds i p).map
      fun b => (p, false, b)) pre post p (p, false, b) (by simp [hb]) (fun q hq => by simp [hn q hq])

theorem scan_clear (dead : Nat → Bool) (i : Nat) (cs : List Nat) (h : scan dead i cs = .clear) :
    i ∉ cs ∧ ∀ c ∈ cs, dead c = false := by
  induction cs with
  | nil => simp
  | cons c cs ih =>
    simp only [scan] at h
    split_ifs at h with h1 h2
    obtain ⟨i1, i2⟩ := ih h
    refine ⟨by simp [h2, i1], fun x hx => ?_⟩
    rcases List.mem_cons.1 hx with rfl | hx
    · simpa using h1
    · exact i2 x hx

theorem scan_of (dead : Nat → Bool) (i : Nat) (cs : List Nat) (h : ∀ c ∈ cs, dead c = false) :
    scan dead i cs = if i ∈ cs then .dup else .clear := by
  induction cs with
  | nil => simp [scan]
  | cons c cs ih =>
    simp only [scan, h c (by simp), Bool.false_eq_true, if_false, List.mem_cons]
    by_cases hic : i = c
    · simp [hic]
    · simp [hic, ih fun x hx => h x (by simp [hx])]

theorem oscan_of {B : Type} (o : Overlay B) (dead : Nat → Bool) (i : Nat)
    (h : ∀ c ∈ o.axIns ++ o.nonIns, dead c = false) :
    o.scan dead i = if i ∈ o.axIns ++ o.nonIns then .dup else .clear := by
  simp only [Overlay.scan]
  rw [scan_of dead i o.axIns fun c hc => h c (by simp [hc]),
    scan_of dead i o.nonIns fun c hc => h c (by simp [hc])]
  by_cases h1 : i ∈ o.axIns <;> simp [h1]

theorem oscan_clear {B : Type} (o : Overlay B) (dead : Nat → Bool) (i : Nat)
    (h : o.scan dead i = .clear) : i ∉ o.axIns ++ o.nonIns := by
  simp only [Overlay.scan] at h
  split at h
  · rename_i h1
    simp [(scan_clear _ _ _ h1).1, (scan_clear _ _ _ h).1]
  · rename_i h1
    exact absurd h (h1 ·)

/-! ### Soundness -/

/-- What an overlay that can still match satisfies. -/
structure Sound {B : Type} (l : Lang B) (b0 : B) (ax non : List Nat) (o : Overlay B) : Prop where
  code : o.hasCode = true
  nodup : (o.axIns ++ o.nonIns).Nodup
  ins : (o.used.map Prod.fst).Perm (o.axIns ++ o.nonIns)
  pats : (o.used.map Prod.snd ++ (o.axPats ++ o.nonPats)).Perm (ax ++ non)
  vals : replay l true b0 o.used = some o.binds

/-- What an instance satisfies. -/
def Whole {B : Type} (l : Lang B) (b0 : B) (ax non : List Nat) (o : Overlay B) : Prop :=
  (o.axIns ++ o.nonIns).Nodup ∧ (o.used.map Prod.fst).Perm (o.axIns ++ o.nonIns) ∧
  (o.used.map Prod.snd).Perm (ax ++ non) ∧ replay l true b0 o.used = some o.binds

theorem replay_snoc {B : Type} (l : Lang B) (us : List (Nat × Nat)) (first : Bool) (b b' : B)
    (i p : Nat) (h : replay l first b us = some b') :
    replay l first b (us ++ [(i, p)]) = l.bind (first && us.isEmpty) b' i p := by
  induction us generalizing first b with
  | nil =>
    simp only [replay, Option.some.injEq] at h
    subst h
    simp only [List.nil_append, replay, List.isEmpty_nil, Bool.and_true]
    cases l.bind first b i p <;> rfl
  | cons u us ih =>
    obtain ⟨j, q⟩ := u
    simp only [replay] at h
    obtain ⟨b1, hb1, h⟩ := Option.bind_eq_some_iff.1 h
    simp only [List.cons_append, replay, hb1, Option.bind_some, ih false b1 h, Bool.false_and,
      List.isEmpty_cons, Bool.and_false]

theorem copy_eq {B : Type} (o : Overlay B) (h1 : o.invalid = false) (h2 : o.hasCode = true) :
    o.copy = o := by cases o; simp_all [Overlay.copy]

theorem ins_after {A : List Nat} {i : Nat} {a n : List Nat} (ax : Bool)
    (h : A.Perm (a ++ n)) : (A ++ [i]).Perm
      ((if ax then a ++ [i] else a) ++ (if ax then n else n ++ [i])) := by
  cases ax with
  | true =>
    simp only [if_true]
    refine (h.append_right [i]).trans ?_
    rw [List.append_assoc, List.append_assoc]
    exact List.Perm.append_left a List.perm_append_comm
  | false =>
    simp only [Bool.false_eq_true, if_false, ← List.append_assoc]
    exact h.append_right [i]

theorem reduce_sound {B : Type} (l : Lang B) (b0 : B) (ax non : List Nat) (o : Overlay B) (dead : Nat → Bool)
    (i : Nat) (hv : o.invalid = false) (h : Sound l b0 ax non o) :
    ((o.reduce l dead i).this.invalid = false → Sound l b0 ax non (o.reduce l dead i).this) ∧
    (∀ x ∈ (o.reduce l dead i).off, x.invalid = false ∧ Sound l b0 ax non x) ∧
    (∀ x ∈ (o.reduce l dead i).prod, Whole l b0 ax non x) := by
  simp only [Overlay.reduce]
  by_cases hd : dead i = true
  · simp [hd, h]
  simp only [hd, if_false]
  cases hs : o.scan dead i with
  | dead => simp
  | dup => simp [h]
  | clear =>
    have hni := oscan_clear o dead i hs
    cases hb : o.bindPattern l i with
    | none => simp [h]
    | some r =>
      obtain ⟨p, isAx, b⟩ := r
      have hm := (bindPattern_mem l o i p isAx b hb).1
      have hval : replay l true b0 (o.used ++ [(i, p)]) = some b := by
        rw [replay_snoc l o.used true b0 o.binds i p h.vals, ← (bindPattern_mem l o i p isAx b hb).2]
        congr 1
        have hlen := h.ins.length_eq
        simp only [List.length_map, List.length_append] at hlen
        rw [← hlen]
        cases o.used <;> simp
      have hins := ins_after (i := i) isAx h.ins
      have hnd : ((if isAx then o.axIns ++ [i] else o.axIns) ++
          (if isAx then o.nonIns else o.nonIns ++ [i])).Nodup := by
        rw [← (ins_after (i := i) isAx (List.Perm.refl _)).nodup_iff]
        rw [List.nodup_append]
        refine ⟨h.nodup, by simp, ?_⟩
        intro a ha c hc
        simp only [List.mem_singleton] at hc
        subst hc
        rintro rfl
        exact hni ha
      simp only [h.code, Bool.not_true, Bool.false_eq_true, if_false]
      by_cases hl : o.axPats.length + o.nonPats.length = 1
      · simp only [hl, if_true]
        refine ⟨by simp, ?_, ?_⟩
        · intro x hx
          simp only [Overlay.offspring, Option.mem_def, Option.some.injEq] at hx
          rw [copy_eq o hv h.code] at hx
          subst hx
          exact ⟨hv, h⟩
        · intro x hx
          simp only [Overlay.offspring, Overlay.update, Option.mem_def, Option.some.injEq] at hx
          subst hx
          refine ⟨hnd, by simpa using hins, ?_, hval⟩
          have hp : o.axPats ++ o.nonPats = [p] := by
            have hlen : (o.axPats ++ o.nonPats).length = 1 := by simpa using hl
            obtain ⟨q, hq⟩ := List.length_eq_one_iff.1 hlen
            have : p ∈ o.axPats ++ o.nonPats := by
              cases isAx <;> simp at hm <;> simp [hm]
            rw [hq] at this ⊢
            simp only [List.mem_singleton] at this
            rw [this]
          have := h.pats
          rw [hp] at this
          simpa using this
      · simp only [hl, if_false]
        refine ⟨fun _ => ?_, ?_, by simp⟩
        · simp only [Overlay.offspring, Overlay.update]
          refine ⟨h.code, hnd, by simpa using hins, ?_, hval⟩
          have hpp : (o.axPats ++ o.nonPats).Perm (p ::
              ((if isAx then o.axPats.erase p else o.axPats) ++
               (if !isAx then o.nonPats.erase p else o.nonPats))) := by
            cases isAx with
            | true =>
              simp only [if_true] at hm ⊢
              exact (List.perm_cons_erase hm).append_right _
            | false =>
              simp only [Bool.false_eq_true, if_false] at hm
              simp only [Bool.false_eq_true, if_false, Bool.not_false, if_true]
              exact ((List.perm_cons_erase hm).append_left _).trans List.perm_middle
          refine List.Perm.trans ?_ h.pats
          simp only [Bool.true_and, List.map_append, List.map_cons, List.map_nil, List.append_assoc,
            List.singleton_append]
          exact List.Perm.append_left _ hpp.symm
        · intro x hx
          simp only [Overlay.offspring, Option.mem_def, Option.some.injEq] at hx
          rw [copy_eq o hv h.code] at hx
          subst hx
          exact ⟨hv, h⟩

theorem loop_sound {B : Type} (l : Lang B) (b0 : B) (ax non : List Nat) (e : Event) (os : List (Overlay B))
    (h : ∀ o ∈ os, o.invalid = false → Sound l b0 ax non o) :
    (∀ o ∈ (loop l e os).1, o.invalid = false → Sound l b0 ax non o) ∧
    (∀ o ∈ (loop l e os).2.1, o.invalid = false → Sound l b0 ax non o) ∧
    (∀ o ∈ (loop l e os).2.2, Whole l b0 ax non o) := by
  induction os with
  | nil => simp [loop]
  | cons o os ih =>
    obtain ⟨i1, i2, i3⟩ := ih fun x hx => h x (by simp [hx])
    simp only [loop]
    split_ifs with h1 h2
    · exact ⟨i1, i2, i3⟩
    · exact ⟨i1, i2, i3⟩
    · have hv : o.invalid = false := by simpa using h2
      obtain ⟨r1, r2, r3⟩ := reduce_sound l b0 ax non o e.dead e.inp hv (h o (by simp) hv)
      refine ⟨?_, ?_, ?_⟩
      · intro x hx hxv
        rcases List.mem_cons.1 hx with rfl | hx
        · exact r1 hxv
        · exact i1 x hx hxv
      · intro x hx hxv
        rcases List.mem_append.1 hx with hx | hx
        · exact (r2 x (by simpa using hx)).2
        · exact i2 x hx hxv
      · intro x hx
        rcases List.mem_append.1 hx with hx | hx
        · exact r3 x (by simpa using hx)
        · exact i3 x hx

theorem run_sound {B : Type} (l : Lang B) (b0 : B) (ax non : List Nat) (es : List Event) (c : Ctl B)
    (h : ∀ o ∈ c.overlays, o.invalid = false → Sound l b0 ax non o) (hm : ∀ o ∈ c.made, Whole l b0 ax non o) :
    (∀ o ∈ (run l c es).overlays, o.invalid = false → Sound l b0 ax non o) ∧
    (∀ o ∈ (run l c es).made, Whole l b0 ax non o) := by
  induction es generalizing c with
  | nil => exact ⟨h, hm⟩
  | cons e es ih =>
    simp only [run, List.foldl_cons]
    apply ih
    · simp only [Ctl.step]
      split_ifs
      · exact h
      · obtain ⟨i1, i2, _⟩ := loop_sound l b0 ax non e c.overlays h
        intro o ho
        rcases List.mem_append.1 ho with ho | ho
        · exact i2 o (by simpa using ho)
        · exact i1 o ho
    · simp only [Ctl.step]
      split_ifs
      · exact hm
      · obtain ⟨_, _, i3⟩ := loop_sound l b0 ax non e c.overlays h
        intro o ho
        rcases List.mem_append.1 ho with ho | ho
        · exact hm o ho
        · exact i3 o ho

theorem init_sound {B : Type} (l : Lang B) (ax non : List Nat) (b0 : B) :
    (∀ o ∈ (Ctl.init ax non b0).overlays, o.invalid = false → Sound l b0 ax non o) ∧
    (∀ o ∈ (Ctl.init ax non b0).made, Whole l b0 ax non o) := by
  refine ⟨?_, by simp [Ctl.init]⟩
  intro o ho _
  simp only [Ctl.init, List.mem_singleton] at ho
  subst ho
  exact ⟨rfl, by simp [master], by simp [master], by simp [master], rfl⟩

/-! ### Completeness -/

/-- An overlay in the loop ends up in one of the three lists. -/
theorem loop_mem {B : Type} (l : Lang B) (e : Event) (os : List (Overlay B)) (o : Overlay B)
    (ho : o ∈ os) (hc : o.canMatch e.now = true) (hv : o.invalid = false) :
    (o.reduce l e.dead e.inp).this ∈ (loop l e os).1 ∧
    (∀ x ∈ (o.reduce l e.dead e.inp).off, x ∈ (loop l e os).2.1) ∧
    (∀ x ∈ (o.reduce l e.dead e.inp).prod, x ∈ (loop l e os).2.2) := by
  induction os with
  | nil => simp at ho
  | cons o' os ih =>
    rcases List.mem_cons.1 ho with rfl | ho
    · simp only [loop, hc, hv, Bool.not_true, Bool.false_eq_true, if_false]
      refine ⟨by simp, ?_, ?_⟩ <;> intro x hx <;> simp only [Option.mem_def] at hx <;> simp [hx]
    · obtain ⟨i1, i2, i3⟩ := ih ho
      simp only [loop]
      split_ifs
      · exact ⟨i1, i2, i3⟩
      · exact ⟨i1, i2, i3⟩
      · exact ⟨List.mem_cons_of_mem _ i1, fun x hx => List.mem_append_right _ (i2 x hx),
          fun x hx => List.mem_append_right _ (i3 x hx)⟩

/-- Whatever the input, an overlay that can still match stays as it is, next to the one that took the
input. -/
theorem step_keeps {B : Type} (l : Lang B) (c : Ctl B) (e : Event) (o : Overlay B)
    (ho : o ∈ c.overlays) (hc : o.canMatch e.now = true) (hv : o.invalid = false)
    (hcode : o.hasCode = true) (hd : ∀ x ∈ o.axIns ++ o.nonIns, e.dead x = false) :
    o ∈ (c.step l e).overlays := by
  simp only [Ctl.step]
  by_cases hdi : e.dead e.inp = true
  · simp [hdi, ho]
  rw [if_neg hdi]
  obtain ⟨h1, h2, _⟩ := loop_mem l e c.overlays o ho hc hv
  rw [List.mem_append, List.mem_reverse]
  have : (o.reduce l e.dead e.inp).this = o ∨ o ∈ (o.reduce l e.dead e.inp).off := by
    simp only [Overlay.reduce, hdi, if_false]
    rw [oscan_of o e.dead e.inp hd]
    by_cases hdup : e.inp ∈ o.axIns ++ o.nonIns
    · simp [hdup]
    · simp only [hdup, if_false]
      cases hb : o.bindPattern l e.inp with
      | none => simp
      | some r =>
        obtain ⟨p, isAx, b⟩ := r
        right
        simp only [hcode, Bool.not_true, Bool.false_eq_true, if_false]
        split_ifs <;> simp [Overlay.offspring, copy_eq o hv hcode]
  rcases this with h | h
  · right; rw [← h]; exact h1
  · left; exact h2 o h

theorem made_mono {B : Type} (l : Lang B) (es : List Event) (c : Ctl B) (o : Overlay B)
    (h : o ∈ c.made) : o ∈ (run l c es).made := by
  induction es generalizing c with
  | nil => exact h
  | cons e es ih =>
    simp only [run, List.foldl_cons]
    apply ih
    simp only [Ctl.step]
    split_ifs
    · exact h
    · simp [h]

theorem pats_zero {ax non : List Nat} (h : ax.length + non.length = 0) : ax = [] ∧ non = [] := by
  constructor <;> apply List.eq_nil_of_length_eq_zero <;> omega

theorem builds_complete {B : Type} (l : Lang B) (es : List Event) (c : Ctl B) (o : Overlay B)
    (ch : List (Event × Nat)) (ho : o ∈ c.overlays) (hv : o.invalid = false)
    (hcode : o.hasCode = true) (hne : ch ≠ [])
    (hsort : es.Pairwise (fun e e' => e.now ≤ e'.now))
    (hsub : (ch.map Prod.fst).Sublist es)
    (hnd : (o.axIns ++ o.nonIns ++ ch.map fun x => x.1.inp).Nodup)
    (hdead : ∀ e ∈ es, ∀ x ∈ o.axIns ++ o.nonIns ++ ch.map (fun x => x.1.inp), e.dead x = false)
    (hb : Builds l true o.axPats o.nonPats (o.axIns.length + o.nonIns.length == 0) o.deadline o.binds
      ch) :
    ∃ x ∈ (run l c es).made, x.used = o.used ++ ch.map fun x => (x.1.inp, x.2) := by
  induction es generalizing c o ch with
  | nil =>
    cases ch with
    | nil => exact absurd rfl hne
    | cons x ch => simp at hsub
  | cons e es ih =>
    obtain ⟨⟨e0, p⟩, ch, rfl⟩ : ∃ x t, ch = x :: t := by
      cases ch with
      | nil => exact absurd rfl hne
      | cons x t => exact ⟨x, t, rfl⟩
    obtain ⟨hle, hsort'⟩ := List.pairwise_cons.1 hsort
    obtain ⟨hdl, b', isAx, hbind, hmem, hfirst, hrest⟩ := hb
    have hcomp : ∀ x ∈ o.axIns ++ o.nonIns, e.dead x = false :=
      fun x hx => hdead e (by simp) x (List.mem_append_left _ hx)
    by_cases htake : e = e0 ∧ (ch.map Prod.fst).Sublist es
    · obtain ⟨rfl, hsub'⟩ := htake
      have hcan : o.canMatch e.now = true := by
        simp only [Overlay.canMatch, Bool.or_eq_true, beq_iff_eq, decide_eq_true_eq]
        exact hdl
      have hdi : e.dead e.inp = false := hdead e (by simp) e.inp (by simp)
      have hni : e.inp ∉ o.axIns ++ o.nonIns := by
        intro hx
        have := (List.nodup_append.1 hnd).2.2
        exact this _ hx _ (by simp) rfl
      have hbp := bindPattern_first l o e.inp p isAx b' (hfirst rfl)
      obtain ⟨h1, _, h3⟩ := loop_mem l e c.overlays o ho hcan hv
      have hred : o.reduce l e.dead e.inp =
          if o.axPats.length + o.nonPats.length = 1 then
            ⟨{ (o.offspring l b' e.inp p isAx false).2 with invalid := true },
              some (o.offspring l b' e.inp p isAx false).1,
              some (o.offspring l b' e.inp p isAx false).2⟩
          else ⟨(o.offspring l b' e.inp p isAx true).2, some (o.offspring l b' e.inp p isAx true).1,
            none⟩ := by
        simp only [Overlay.reduce, hdi, Bool.false_eq_true, if_false]
        rw [oscan_of o e.dead e.inp hcomp]
        simp only [hni, if_false, hbp, hcode, Bool.not_true, Bool.false_eq_true]
      have hstep : ∀ x, x ∈ (loop l e c.overlays).1 → x ∈ (c.step l e).overlays := by
        intro x hx
        simp [Ctl.step, hdi, hx]
      have hmade : ∀ x, x ∈ (loop l e c.overlays).2.2 → x ∈ (c.step l e).made := by
        intro x hx
        simp [Ctl.step, hdi, hx]
      simp only [run, List.foldl_cons]
      by_cases hlast : o.axPats.length + o.nonPats.length = 1
      · have hch : ch = [] := by
          cases ch with
          | nil => rfl
          | cons y t =>
            exfalso
            obtain ⟨_, _, isAx', _, hm', _⟩ := hrest
            cases isAx with
            | true =>
              simp only [if_true] at hmem hm'
              have hlen := List.length_erase_of_mem hmem
              have hpos := List.length_pos_of_mem hmem
              have : o.nonPats.length = 0 := by omega
              have h0 : (o.axPats.erase p).length = 0 := by omega
              rw [List.eq_nil_of_length_eq_zero h0, List.eq_nil_of_length_eq_zero this] at hm'
              cases isAx' <;> simp at hm'
            | false =>
              simp only [Bool.false_eq_true, if_false] at hmem hm'
              have hlen := List.length_erase_of_mem hmem
              have hpos := List.length_pos_of_mem hmem
              have : o.axPats.length = 0 := by omega
              have h0 : (o.nonPats.erase p).length = 0 := by omega
              rw [List.eq_nil_of_length_eq_zero h0, List.eq_nil_of_length_eq_zero this] at hm'
              cases isAx' <;> simp at hm'
        subst hch
        refine ⟨(o.offspring l b' e.inp p isAx false).2, ?_, by
          simp [Overlay.offspring, Overlay.update]⟩
        apply made_mono
        apply hmade
        apply h3
        rw [hred, if_pos hlast]
        simp
      · rw [hred, if_neg hlast] at h1
        have hch : ch ≠ [] := by
          rintro rfl
          obtain ⟨ha, hn⟩ := hrest
          cases isAx with
          | true =>
            simp only [if_true] at hmem ha hn
            have hlen := List.length_erase_of_mem hmem
            have hpos := List.length_pos_of_mem hmem
            rw [ha] at hlen
            simp only [List.length_nil] at hlen
            rw [hn] at hlast
            simp only [List.length_nil] at hlast
            omega
          | false =>
            simp only [Bool.false_eq_true, if_false] at hmem ha hn
            have hlen := List.length_erase_of_mem hmem
            have hpos := List.length_pos_of_mem hmem
            rw [hn] at hlen
            simp only [List.length_nil] at hlen
            rw [ha] at hlast
            simp only [List.length_nil] at hlast
            omega
        have hperm : ((o.offspring l b' e.inp p isAx true).2.axIns ++
            (o.offspring l b' e.inp p isAx true).2.nonIns).Perm (o.axIns ++ o.nonIns ++ [e.inp]) :=
          (ins_after (i := e.inp) isAx (List.Perm.refl _)).symm
        have hlen0 : ((o.offspring l b' e.inp p isAx true).2.axIns.length +
            (o.offspring l b' e.inp p isAx true).2.nonIns.length == 0) = false := by
          have := hperm.length_eq
          simp only [List.length_append, List.length_cons, List.length_nil] at this
          rw [beq_eq_false_iff_ne]
          omega
        obtain ⟨x, hx, hxu⟩ := ih (c.step l e) (o.offspring l b' e.inp p isAx true).2 ch
          (hstep _ h1) hv hcode hch hsort' hsub'
          (by
            rw [(hperm.append_right _).nodup_iff]
            simpa using hnd)
          (by
            intro e1 he1 x hx
            apply hdead e1 (by simp [he1])
            have hx' := (hperm.append_right (ch.map fun x => x.1.inp)).mem_iff.1 hx
            simpa using hx')
          (by
            rw [hlen0]
            have : Builds l true (if isAx then o.axPats.erase p else o.axPats)
              (if isAx then o.nonPats else o.nonPats.erase p) false
              (if o.deadline = 0 then l.fwdBefore b' else o.deadline) b' ch := hrest
            cases isAx <;> simpa [Overlay.offspring, Overlay.update] using this)
        refine ⟨x, hx, ?_⟩
        rw [hxu]
        simp [Overlay.offspring, Overlay.update]
    · -- the event is not the next one of the chain
      have hsub' : (((e0, p) :: ch).map Prod.fst).Sublist es := by
        rw [List.map_cons] at hsub ⊢
        cases hsub with
        | cons _ h => exact h
        | cons_cons _ h => exact absurd ⟨rfl, h⟩ htake
      have hcan : o.canMatch e.now = true := by
        simp only [Overlay.canMatch, Bool.or_eq_true, beq_iff_eq, decide_eq_true_eq]
        rcases hdl with h | h
        · exact Or.inl h
        · right
          have : e0 ∈ es := hsub'.subset (by simp)
          exact Nat.le_trans (hle e0 this) h
      simp only [run, List.foldl_cons]
      exact ih (c.step l e) o ((e0, p) :: ch) (step_keeps l c e o ho hcan hv hcode hcomp) hv hcode
        (by simp) hsort' hsub' hnd (fun e1 h1 => hdead e1 (by simp [h1]))
        ⟨hdl, b', isAx, hbind, hmem, hfirst, hrest⟩

/-- C50 as far as it holds, for any way of matching and any stream. Every instance is made of distinct
inputs and uses every pattern once, and each input matches its pattern under the values bound by the
inputs before it. An overlay that can still match stays available, whatever inputs
it takes. Every combination of distinct valid inputs in the order of the stream, within the deadline,
each taken for the first pattern that it binds to, makes an instance.

Missing: combinations in which an input stands for a later pattern than the first it binds to. -/
theorem C50_combinations_partial {B : Type} (l : Lang B) (ax non : List Nat) (b : B)
    (es : List Event) (hsort : es.Pairwise (fun e e' => e.now ≤ e'.now))
    (hpos : 0 < ax.length + non.length) :
    (∀ o ∈ (run l (Ctl.init ax non b) es).made,
      (o.axIns ++ o.nonIns).Nodup ∧ (o.used.map Prod.fst).Perm (o.axIns ++ o.nonIns) ∧
      (o.used.map Prod.snd).Perm (ax ++ non) ∧ replay l true b o.used = some o.binds) ∧
    (∀ o ∈ (run l (Ctl.init ax non b) es).overlays, o.invalid = false → ∀ e : Event,
      o.canMatch e.now = true → (∀ x ∈ o.axIns ++ o.nonIns, e.dead x = false) →
      o ∈ (run l (Ctl.init ax non b) (es ++ [e])).overlays) ∧
    (∀ ch, Admissible l true ax non b es ch →
      ∃ o ∈ (run l (Ctl.init ax non b) es).made, o.used = ch.map fun x => (x.1.inp, x.2)) := by
  obtain ⟨h1, h2⟩ := init_sound l ax non b
  obtain ⟨s1, s2⟩ := run_sound l b ax non es (Ctl.init ax non b) h1 h2
  refine ⟨s2, ?_, ?_⟩
  · intro o ho hv e hc hd
    have : run l (Ctl.init ax non b) (es ++ [e]) = (run l (Ctl.init ax non b) es).step l e := by
      simp [run]
    rw [this]
    exact step_keeps l _ e o ho hc hv (s1 o ho hv).code hd
  · rintro ch ⟨hsub, hnd, hdead, hb⟩
    have hne : ch ≠ [] := by
      rintro rfl
      obtain ⟨ha, hn⟩ := hb
      rw [ha, hn] at hpos
      exact absurd hpos (by simp)
    obtain ⟨x, hx, hu⟩ := builds_complete l es (Ctl.init ax non b) (master ax non b) ch
      (by simp [Ctl.init]) rfl rfl hne hsort hsub (by simpa [master] using hnd)
      (by
        intro e he x hx
        simp only [master, List.nil_append, List.mem_map] at hx
        obtain ⟨y, hy, rfl⟩ := hx
        exact hdead e he y hy)
      (by simpa [master] using hb)
    exact ⟨x, hx, by simpa [master] using hu⟩

/-- Two inputs for the first of two patterns and one for the second: both instances are made. -/
theorem C50_nonvacuous :
    Admissible pick true [] [1, 2] () [ev 11, ev 12, ev 10] [(ev 11, 1), (ev 10, 2)] ∧
    (run pick (Ctl.init [] [1, 2] ()) [ev 11, ev 12, ev 10]).made.map (·.used) =
      [[(12, 1), (10, 2)], [(11, 1), (10, 2)]] ∧
    (let l : Lang Nat := ⟨fun first b i p => if first || b = i / 10 then
        (if i % 10 = p then some (i / 10) else none) else none, fun _ => none, fun b => b * 100⟩
     (run l (Ctl.init [1] [2] 0) [⟨5, 31, fun _ => false⟩, ⟨6, 41, fun _ => false⟩,
        ⟨7, 32, fun _ => false⟩, ⟨8, 42, fun _ => false⟩, ⟨401, 42, fun _ => false⟩]).made.map
          (·.used) = [[(31, 1), (32, 2)], [(41, 1), (42, 2)]]) := by
  refine ⟨⟨by simp, by decide, by simp [ev], ?_⟩, by decide, by decide⟩
  refine ⟨Or.inl rfl, (), false, by decide, by decide, fun _ => ⟨by decide, ?_⟩, ?_⟩
  · simp only [Bool.false_eq_true, if_false]
    exact ⟨by simp, [], [2], rfl, by simp⟩
  refine ⟨Or.inl rfl, (), false, by decide, by decide, fun _ => ⟨by decide, ?_⟩, ?_⟩
  · simp only [Bool.false_eq_true, if_false]
    exact ⟨by simp, [], [], by decide, by simp⟩
  exact ⟨rfl, rfl⟩

/-! ## Guards -/

/-- C65 in full: the map of every instance satisfies the guards. -/
def C65_full : Prop :=
  ∀ (B : Type) (l : Lang B) (ax non : List Nat) (b : B) (es : List Event),
    ∀ o ∈ (run l (Ctl.init ax non b) es).made, (l.guard o.binds).isSome

theorem reduce_guard {B : Type} (l : Lang B) (g : B → Option B) (o : Overlay B) (dead : Nat → Bool)
    (i : Nat) (h : o.hasCode = true) :
    o.reduce { l with guard := g } dead i = o.reduce l dead i := by
  have hb : o.bindPattern { l with guard := g } i = o.bindPattern l i := rfl
  have hf : ∀ b i p ax r, o.offspring { l with guard := g } b i p ax r = o.offspring l b i p ax r :=
    fun _ _ _ _ _ => rfl
  simp only [Overlay.reduce, hb, hf, h, Bool.not_true, Bool.false_eq_true, if_false]

theorem loop_guard {B : Type} (l : Lang B) (g : B → Option B) (b0 : B) (ax non : List Nat) (e : Event)
    (os : List (Overlay B)) (h : ∀ o ∈ os, o.invalid = false → Sound l b0 ax non o) :
    loop { l with guard := g } e os = loop l e os := by
  induction os with
  | nil => rfl
  | cons o os ih =>
    have ih' := ih fun x hx => h x (by simp [hx])
    simp only [loop, ih']
    by_cases hv : o.invalid = true
    · simp [hv]
    · rw [reduce_guard l g o e.dead e.inp (h o (by simp) (by simpa using hv)).code]

/-- The guards of a composite state have no influence on anything, for any stream of inputs: overlays
are built with their code loaded, and the branch that evaluates the guards is for overlays without
code. So `C65_full` fails, for guards that are never satisfied. -/
theorem C65_guards_violated :
    ¬ C65_full ∧
    ∀ (B : Type) (l : Lang B) (g : B → Option B) (ax non : List Nat) (b : B) (es : List Event),
      run { l with guard := g } (Ctl.init ax non b) es = run l (Ctl.init ax non b) es := by
  constructor
  · intro h
    have := h Unit ⟨fun _ _ _ _ => some (), fun _ => none, fun _ => 0⟩ [] [1] () [ev 7]
      ⟨[], [1], [], [7], (), 0, false, true, [(7, 1)]⟩ (by decide)
    exact absurd this (by decide)
  · intro B l g ax non b es
    have key : ∀ (es : List Event) (c : Ctl B),
        (∀ o ∈ c.overlays, o.invalid = false → Sound l b ax non o) →
        (∀ o ∈ c.made, Whole l b ax non o) →
        run { l with guard := g } c es = run l c es := by
      intro es
      induction es with
      | nil => intro c _ _; rfl
      | cons e es ih =>
        intro c h hm
        simp only [run, List.foldl_cons]
        have : Ctl.step { l with guard := g } c e = Ctl.step l c e := by
          simp only [Ctl.step, loop_guard l g b ax non e c.overlays h]
        rw [this]
        have h' := run_sound l b ax non [e] c h hm
        exact ih (c.step l e) h'.1 h'.2
    exact key es _ (init_sound l ax non b).1 (init_sound l ax non b).2

/-! ## Sub-models -/

/-- C51 in full: with an input, the composite state goes away if it is gone already or the controller
of any of its patterns is gone. -/
def C51_full : Prop :=
  ∀ (pats : List Pat) (dead : Nat → Bool), (∃ c, Pat.hlp (some c) ∈ pats ∧ dead c = true) →
    (becomeInvalidated dead ⟨false, subControllers pats, false, 1, 0⟩).2 = true

/-- Only the first pattern is looked at. -/
theorem C51_sub_models_violated :
    ¬ C51_full ∧
    (becomeInvalidated (fun c => c == 8)
      ⟨false, subControllers [.hlp (some 7), .hlp (some 8)], false, 1, 0⟩).2 = false ∧
    subControllers [.hlp (some 7), .hlp (some 8), .other] = [7, 7, 7] ∧
    subControllers [.other, .hlp (some 8)] = [] := by
  refine ⟨fun h => ?_, by decide, by decide, by decide⟩
  have := h [.other, .hlp (some 8)] (fun _ => true) ⟨8, by simp, rfl⟩
  exact absurd this (by decide)

/-- Exactly which sub-controllers are kept: that of the first pattern, if it has one. -/
theorem mem_subControllers (pats : List Pat) (c : Nat) :
    c ∈ subControllers pats ↔ pats.head? = some (.hlp (some c)) := by
  cases pats with
  | nil => simp [subControllers]
  | cons p ps =>
    simp only [subControllers, List.mem_filterMap, List.mem_range, List.getElem?_cons_zero,
      List.head?_cons, Option.some.injEq]
    constructor
    · rintro ⟨_, _, h⟩
      split at h
      · rename_i q hq
        simp only [Option.some.injEq] at hq h
        rw [hq, h]
      · exact absurd h (by simp)
    · rintro rfl
      exact ⟨0, by simp, rfl⟩

/-- C51 as far as it holds, for the whole history of inputs: the composite state without template
arguments goes away with an input exactly when it is gone already or the controller of its first
pattern is gone, and stays gone. With template arguments it also goes away when it is no longer
referenced. -/
theorem C51_first_pattern_partial (pats : List Pat) (tpl : Bool) (hist : List (Nat → Bool))
    (refs : Nat) :
    let s := hist.foldl (fun s d => (becomeInvalidated d s).1)
      (⟨false, subControllers pats, tpl, refs, 0⟩ : Life)
    (∀ c, pats.head? = some (.hlp (some c)) → (∃ d ∈ hist, d c = true) → s.invalid = true) ∧
    (tpl = false → s.invalid = true →
      ∃ c, pats.head? = some (.hlp (some c)) ∧ ∃ d ∈ hist, d c = true) := by
  have key : ∀ (hist : List (Nat → Bool)) (s : Life), s.tplArgs = tpl →
      (s.invalid = false → s.subs = subControllers pats) →
      let s' := hist.foldl (fun s d => (becomeInvalidated d s).1) s
      (s.invalid = true → s'.invalid = true) ∧
      (∀ c, pats.head? = some (.hlp (some c)) → (∃ d ∈ hist, d c = true) → s'.invalid = true) ∧
      (tpl = false → s'.invalid = true → s.invalid = false →
        ∃ c, pats.head? = some (.hlp (some c)) ∧ ∃ d ∈ hist, d c = true) := by
    intro hist
    induction hist with
    | nil =>
      intro s _ _
      refine ⟨id, by simp, ?_⟩
      intro _ h1 h2
      simp only [List.foldl_nil] at h1
      rw [h1] at h2
      exact absurd h2 (by simp)
    | cons d hist ih =>
      intro s ht hs
      simp only [List.foldl_cons]
      have hb : (becomeInvalidated d s).1.tplArgs = tpl ∧
          ((becomeInvalidated d s).1.invalid = false →
            (becomeInvalidated d s).1.subs = subControllers pats) ∧
          (s.invalid = true → (becomeInvalidated d s).1.invalid = true) ∧
          (∀ c ∈ s.subs, d c = true → (becomeInvalidated d s).1.invalid = true) ∧
          (tpl = false → s.invalid = false → (becomeInvalidated d s).1.invalid = true →
            ∃ c ∈ s.subs, d c = true) := by
        simp only [becomeInvalidated]
        by_cases h1 : s.invalid = true
        · simp [h1, ht]
        · have h1' : s.invalid = false := by simpa using h1
          by_cases h2 : s.subs.any d = true
          · simp only [h1', Bool.false_eq_true, if_false, h2, if_true]
            refine ⟨ht, by simp, by simp, by simp, fun _ _ _ => ?_⟩
            simpa using h2
          · simp only [h1', Bool.false_eq_true, if_false, h2]
            have h2' : ∀ c ∈ s.subs, d c = false := by simpa using h2
            have hsub := hs h1'
            by_cases h3 : s.tplArgs = true
            · simp only [h3, if_true]
              have htp : tpl = true := by rw [← ht, h3]
              split_ifs with h4
              · exact ⟨htp.symm, by simp, by simp, by simp, by simp [htp]⟩
              · refine ⟨htp.symm, fun _ => hsub, by simp, fun c hc hd => ?_, by simp [htp]⟩
                rw [h2' c hc] at hd; exact absurd hd (by simp)
            · simp only [h3]
              refine ⟨ht, fun _ => hsub, by simp, fun c hc hd => ?_, fun _ _ h => ?_⟩
              · rw [h2' c hc] at hd; exact absurd hd (by simp)
              · simp [h1'] at h
      obtain ⟨b1, b2, b3, b4, b5⟩ := hb
      obtain ⟨i1, i2, i3⟩ := ih _ b1 b2
      refine ⟨fun h => i1 (b3 h), ?_, ?_⟩
      · rintro c hc ⟨d', hd', hdc⟩
        by_cases hv : s.invalid = true
        · exact i1 (b3 hv)
        rcases List.mem_cons.1 hd' with rfl | hd'
        · apply i1
          apply b4 c _ hdc
          rw [hs (by simpa using hv)]
          exact (mem_subControllers pats c).2 hc
        · exact i2 c hc ⟨d', hd', hdc⟩
      · intro htp hfin hv
        by_cases hv' : (becomeInvalidated d s).1.invalid = true
        · obtain ⟨c, hc, hd⟩ := b5 htp hv hv'
          rw [hs hv] at hc
          exact ⟨c, (mem_subControllers pats c).1 hc, d, by simp, hd⟩
        · obtain ⟨c, hc, d', hd', hd⟩ := i3 htp hfin (by simpa using hv')
          exact ⟨c, hc, d', by simp [hd'], hd⟩
  obtain ⟨_, k2, k3⟩ := key hist ⟨false, subControllers pats, tpl, refs, 0⟩ rfl (fun _ => rfl)
  exact ⟨k2, fun h1 h2 => k3 h1 h2 rfl⟩

/-- The hypotheses are met. -/
theorem C51_nonvacuous :
    (becomeInvalidated (fun c => c == 7)
      ⟨false, subControllers [.hlp (some 7), .other], false, 1, 0⟩).1 =
      ⟨true, [], false, 1, 0⟩ := by decide

end Verif.Cst
