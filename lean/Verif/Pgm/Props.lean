import Verif.Pgm.Model
import Mathlib.Data.List.Perm.Basic
import Mathlib.Tactic.SplitIfs
import Mathlib.Tactic.ByContra
/-!
# C54, C67: programs and anti-programs
-/
namespace Verif.Pgm

/-- The state reached by matching inputs with patterns one after the other. -/
def replay {S : Type} (l : Lang S) : S → List Nat → List (Nat × Nat) → Option S
  | s, _, [] => some s
  | s, vs, (i, p) :: us =>
    match l.try_ s (vs ++ [i]) i p with
    | .success s' => replay l s' (vs ++ [i]) us
    | _ => none

/-- The inputs `ch` match the patterns given with them one after the other, and these are all the
patterns in `rem`. -/
def Builds {S : Type} (l : Lang S) : S → List Nat → List Nat → List (Event × Nat) → Prop
  | _, _, rem, [] => rem = []
  | s, vs, rem, (e, p) :: ch =>
    p ∈ rem ∧ ∃ s', l.try_ s (vs ++ [e.inp]) e.inp p = .success s' ∧
      Builds l s' (vs ++ [e.inp]) (rem.erase p) ch

/-- A combination of inputs of the stream, in the order of the stream, none of which is invalidated
meanwhile, all within the time scope from the first on, that matches all the patterns. -/
def Admissible {S : Type} (l : Lang S) (c : Cfg) (pats : List Nat) (s : S) (es : List Event)
    (ch : List (Event × Nat)) : Prop :=
  (ch.map Prod.fst).Sublist es ∧ (∀ e ∈ es, ∀ x ∈ ch, e.dead x.1.inp = false) ∧
  (∀ x ∈ ch.head?, 0 < x.1.now ∧ (c.tsc = 0 ∨ ∀ y ∈ ch, y.1.now ≤ x.1.now + c.tsc)) ∧
  Builds l s [] pats ch

/-- What the records of an overlay say. -/
def Accounted {S : Type} (l : Lang S) (pats : List Nat) (s0 : S) (o : Overlay S) : Prop :=
  o.used.map Prod.fst = o.views ∧ (o.used.map Prod.snd ++ o.rem).Perm pats ∧
  replay l s0 [] o.used = some o.st

/-- The same overlay, up to the order of the remaining patterns. -/
def Same {S : Type} (o o' : Overlay S) : Prop :=
  o'.used = o.used ∧ o'.views = o.views ∧ o'.st = o.st ∧ o'.birth = o.birth ∧ o'.rem.Perm o.rem ∧
  o'.invalid = false

/-- C54 in full, for programs that run more than once. -/
def C54_full : Prop :=
  ∀ (S : Type) (l : Lang S) (c : Cfg) (pats : List Nat) (s : S) (es : List Event), c.once = false →
    pats.Nodup → pats ≠ [] → es.Pairwise (fun e e' => e.now ≤ e'.now) →
    (∀ o ∈ (run l c (Ctl.init pats s) es).overlays, Accounted l pats s o) ∧
    (∀ o ∈ (run l c (Ctl.init pats s) es).full, Accounted l pats s o ∧ o.rem = []) ∧
    (∀ o ∈ (run l c (Ctl.init pats s) es).overlays, ∀ e : Event, o.gone c.vol e.dead = false →
      (c.tsc = 0 ∨ o.birth = 0 ∨ e.now ≤ o.birth + c.tsc) →
      ∃ o' ∈ (run l c (Ctl.init pats s) (es ++ [e])).overlays, Same o o') ∧
    (∀ ch, Admissible l c pats s es ch →
      ∃ o ∈ (run l c (Ctl.init pats s) es).full, o.used = ch.map fun x => (x.1.inp, x.2))

/-- Two patterns, 1 and 2; input 10 fits both, input 11 fits pattern 1 only. -/
def pick : Lang Unit :=
  ⟨fun _ _ i p => if i = 10 ∨ (i = 11 ∧ p = 1) then .success () else .impossible, fun _ => true,
   fun _ => true⟩
def ev (i : Nat) : Event := ⟨1, i, fun _ => false⟩

/-- An input that fits two patterns is only tried for the first. -/
theorem C54_matches_violated :
    ¬ C54_full ∧
    (run pick ⟨0, false, false⟩ (Ctl.init [1, 2] ()) [ev 10, ev 11]).full = [] ∧
    (run pick ⟨0, false, false⟩ (Ctl.init [1, 2] ()) [ev 11, ev 10]).full.map (·.used) =
      [[(11, 1), (10, 2)]] := by
  have h1 : (run pick ⟨0, false, false⟩ (Ctl.init [1, 2] ()) [ev 10, ev 11]).full = [] := by decide
  refine ⟨fun h => ?_, h1, by decide⟩
  obtain ⟨_, _, _, h4⟩ := h Unit pick ⟨0, false, false⟩ [1, 2] () [ev 10, ev 11] rfl (by decide)
    (by decide) (by simp [ev])
  obtain ⟨o, ho, _⟩ := h4 [(ev 10, 2), (ev 11, 1)] ⟨by simp, by simp [ev], by simp [ev],
    by decide, (), rfl, by decide, (), rfl, rfl⟩
  rw [h1] at ho
  exact absurd ho (by simp)

/-! ### Pieces -/

theorem tryAll_some {S : Type} (l : Lang S) (s : S) (vs : List Nat) (i p : Nat) (s' : S)
    (ps : List Nat) (h : tryAll l s vs i ps = some (p, s')) :
    p ∈ ps ∧ l.try_ s (vs ++ [i]) i p = .success s' := by
  induction ps with
  | nil => simp [tryAll] at h
  | cons q ps ih =>
    simp only [tryAll] at h
    split at h
    · rename_i s1 hs
      simp only [Option.some.injEq, Prod.mk.injEq] at h
      obtain ⟨rfl, rfl⟩ := h
      exact ⟨by simp, hs⟩
    · obtain ⟨h1, h2⟩ := ih h
      exact ⟨by simp [h1], h2⟩
    · obtain ⟨h1, h2⟩ := ih h
      exact ⟨by simp [h1], h2⟩

/-- An input fits at most one pattern. -/
def Unambiguous {S : Type} (l : Lang S) : Prop :=
  ∀ s vs i p q s1 s2, l.try_ s vs i p = .success s1 → l.try_ s vs i q = .success s2 → p = q

theorem tryAll_unique {S : Type} (l : Lang S) (hu : Unambiguous l) (s : S) (vs : List Nat)
    (i p : Nat) (s' : S) (ps : List Nat) (hp : p ∈ ps)
    (h : l.try_ s (vs ++ [i]) i p = .success s') : tryAll l s vs i ps = some (p, s') := by
  induction ps with
  | nil => simp at hp
  | cons q ps ih =>
    simp only [tryAll]
    split
    · rename_i s1 hs
      have := hu _ _ _ _ _ _ _ h hs
      subst this
      rw [h] at hs
      simp only [Res.success.injEq] at hs
      rw [hs]
    · rename_i hs
      rcases List.mem_cons.1 hp with rfl | hp
      · rw [h] at hs; exact absurd hs (by simp)
      · exact ih hp
    · rename_i hs
      rcases List.mem_cons.1 hp with rfl | hp
      · rw [h] at hs; exact absurd hs (by simp)
      · exact ih hp

theorem replay_snoc {S : Type} (l : Lang S) (us : List (Nat × Nat)) (s s1 s' : S) (vs : List Nat)
    (i p : Nat) (h : replay l s vs us = some s1)
    (hs : l.try_ s1 (vs ++ us.map Prod.fst ++ [i]) i p = .success s') :
    replay l s vs (us ++ [(i, p)]) = some s' := by
  induction us generalizing s vs with
  | nil =>
    simp only [replay, Option.some.injEq] at h
    subst h
    simp only [List.map_nil, List.append_nil] at hs
    simp [replay, hs]
  | cons u us ih =>
    obtain ⟨j, q⟩ := u
    simp only [replay, List.cons_append] at h ⊢
    split at h
    · rename_i s2 hs2
      exact ih s2 (vs ++ [j]) h (by simpa using hs)
    · exact absurd h (by simp)

/-- What a match does. -/
theorem match_spec {S : Type} (l : Lang S) (o o' : Overlay S) (i p : Nat)
    (h : o.matchInput l i = some (p, o')) :
    p ∈ o.rem ∧ l.try_ o.st (o.views ++ [i]) i p = .success o'.st ∧ o'.rem = o.rem.erase p ∧
    o'.views = o.views ++ [i] ∧ o'.used = o.used ++ [(i, p)] ∧ o'.birth = o.birth ∧
    o'.invalid = o.invalid := by
  simp only [Overlay.matchInput] at h
  split at h
  · exact absurd h (by simp)
  · rename_i q s' hs
    simp only [Option.some.injEq, Prod.mk.injEq] at h
    obtain ⟨rfl, rfl⟩ := h
    obtain ⟨h1, h2⟩ := tryAll_some l o.st o.views i q s' o.rem hs
    exact ⟨h1, h2, rfl, rfl, rfl, rfl, rfl⟩

/-- The offspring is the overlay before the match. -/
theorem offspring_same {S : Type} (l : Lang S) (o o' : Overlay S) (i p : Nat)
    (h : o.matchInput l i = some (p, o')) : Same o (o.offspring o' p) := by
  obtain ⟨h1, _, h3, h4, h5, h6, _⟩ := match_spec l o o' i p h
  refine ⟨by simp [Overlay.offspring, h5], by simp [Overlay.offspring, h4], rfl, h6, ?_, rfl⟩
  simp only [Overlay.offspring, h3]
  exact (List.perm_append_singleton p (o.rem.erase p)).trans (List.perm_cons_erase h1).symm

theorem accounted_match {S : Type} (l : Lang S) (pats : List Nat) (s0 : S) (o o' : Overlay S)
    (i p : Nat) (ha : Accounted l pats s0 o) (h : o.matchInput l i = some (p, o')) :
    Accounted l pats s0 o' := by
  obtain ⟨h1, h2, h3, h4, h5, _⟩ := match_spec l o o' i p h
  obtain ⟨a1, a2, a3⟩ := ha
  refine ⟨by simp [h5, h4, a1], ?_, ?_⟩
  · rw [h5, h3]
    simp only [List.map_append, List.map_cons, List.map_nil, List.append_assoc,
      List.singleton_append]
    exact (List.Perm.append_left _ (List.perm_cons_erase h1).symm).trans a2
  · rw [h5]
    exact replay_snoc l o.used s0 o.st o'.st [] i p a3 (by simpa [a1] using h2)

theorem accounted_same {S : Type} (l : Lang S) (pats : List Nat) (s0 : S) (o o' : Overlay S)
    (ha : Accounted l pats s0 o) (h : Same o o') : Accounted l pats s0 o' := by
  obtain ⟨h1, h2, h3, _, h5, _⟩ := h
  obtain ⟨a1, a2, a3⟩ := ha
  exact ⟨by rw [h1, h2, a1], by rw [h1]; exact (List.Perm.append_left _ h5).trans a2,
    by rw [h1, h3, a3]⟩

theorem accounted_ext {S : Type} (l : Lang S) (pats : List Nat) (s0 : S) (o o' : Overlay S)
    (ha : Accounted l pats s0 o) (h1 : o'.used = o.used) (h2 : o'.views = o.views)
    (h3 : o'.st = o.st) (h4 : o'.rem = o.rem) : Accounted l pats s0 o' := by
  obtain ⟨a1, a2, a3⟩ := ha
  exact ⟨by rw [h1, h2, a1], by rw [h1, h4]; exact a2, by rw [h1, h3, a3]⟩

theorem reduce_accounted {S : Type} (l : Lang S) (pats : List Nat) (s0 : S) (o : Overlay S)
    (now i : Nat) (ha : Accounted l pats s0 o) :
    Accounted l pats s0 (o.reduce l now i).this ∧
    (∀ x ∈ (o.reduce l now i).off, Accounted l pats s0 x) ∧
    (∀ x ∈ (o.reduce l now i).full, Accounted l pats s0 x ∧ x.rem = []) := by
  simp only [Overlay.reduce]
  split
  · exact ⟨ha, by simp, by simp⟩
  · rename_i p o' hm
    have hacc := accounted_match l pats s0 o o' i p ha hm
    have hoff := accounted_same l pats s0 o _ ha (offspring_same l o o' i p hm)
    by_cases h : o'.rem.length = 0
    · rw [if_pos h]
      refine ⟨accounted_ext l pats s0 o' _ hacc rfl rfl rfl rfl, ?_, ?_⟩
      · intro x hx
        simp only [Option.mem_def, Option.some.injEq] at hx
        subst hx; exact hoff
      · intro x hx
        simp only [Option.mem_def, Option.some.injEq] at hx
        subst hx; exact ⟨hacc, List.eq_nil_of_length_eq_zero h⟩
    · rw [if_neg h]
      refine ⟨accounted_ext l pats s0 o' _ hacc rfl rfl rfl rfl, ?_, by simp⟩
      intro x hx
      simp only [Option.mem_def, Option.some.injEq] at hx
      subst hx; exact hoff

theorem loop_accounted {S : Type} (l : Lang S) (c : Cfg) (pats : List Nat) (s0 : S) (e : Event)
    (os : List (Overlay S)) (h : ∀ o ∈ os, Accounted l pats s0 o) :
    (∀ o ∈ (loop l c e os).kept, Accounted l pats s0 o) ∧
    (∀ o ∈ (loop l c e os).off, Accounted l pats s0 o) ∧
    (∀ o ∈ (loop l c e os).full, Accounted l pats s0 o ∧ o.rem = []) ∧
    (∀ o ∈ (loop l c e os).fired, o ∈ (loop l c e os).full) := by
  induction os with
  | nil => simp [loop]
  | cons o os ih =>
    obtain ⟨i1, i2, i3, i4⟩ := ih fun x hx => h x (by simp [hx])
    obtain ⟨r1, r2, r3⟩ := reduce_accounted l pats s0 o e.now e.inp (h o (by simp))
    simp only [loop]
    split_ifs with g1 g2 g3 g4 g5
    · exact ⟨i1, i2, i3, i4⟩
    · exact ⟨i1, i2, i3, i4⟩
    · refine ⟨?_, fun x hx => r2 x (by simpa using hx), fun x hx => r3 x (by simpa using hx), ?_⟩
      · intro x hx
        rcases List.mem_cons.1 hx with rfl | hx
        · exact r1
        · exact h x (by simp [hx])
      · exact fun x hx => hx
    · refine ⟨?_, fun x hx => r2 x (by simpa using hx), fun x hx => r3 x (by simpa using hx), ?_⟩
      · intro x hx
        rcases List.mem_cons.1 hx with rfl | hx
        · exact r1
        · exact h x (by simp [hx])
      · simp
    all_goals
      refine ⟨?_, ?_, ?_, ?_⟩
      · intro x hx
        rcases List.mem_cons.1 hx with rfl | hx
        · exact r1
        · exact i1 x hx
      · intro x hx
        rcases List.mem_append.1 hx with hx | hx
        · exact r2 x (by simpa using hx)
        · exact i2 x hx
      · intro x hx
        rcases List.mem_append.1 hx with hx | hx
        · exact r3 x (by simpa using hx)
        · exact i3 x hx
      · intro x hx
        rcases List.mem_append.1 hx with hx | hx
        · first
            | exact List.mem_append_left _ hx
            | simp at hx
        · exact List.mem_append_right _ (i4 x hx)

theorem run_accounted {S : Type} (l : Lang S) (c : Cfg) (pats : List Nat) (s0 : S) (es : List Event)
    (x : Ctl S) (h : ∀ o ∈ x.overlays, Accounted l pats s0 o)
    (hf : ∀ o ∈ x.full, Accounted l pats s0 o ∧ o.rem = []) (hr : ∀ o ∈ x.fired, o ∈ x.full) :
    (∀ o ∈ (run l c x es).overlays, Accounted l pats s0 o) ∧
    (∀ o ∈ (run l c x es).full, Accounted l pats s0 o ∧ o.rem = []) ∧
    (∀ o ∈ (run l c x es).fired, o ∈ (run l c x es).full) := by
  induction es generalizing x with
  | nil => exact ⟨h, hf, hr⟩
  | cons e es ih =>
    simp only [run, List.foldl_cons]
    obtain ⟨i1, i2, i3, i4⟩ := loop_accounted l c pats s0 e x.overlays h
    apply ih
    · simp only [Ctl.step]
      split_ifs
      · exact h
      · intro o ho
        rcases List.mem_append.1 ho with ho | ho
        · exact i2 o (by simpa using ho)
        · exact i1 o ho
    · simp only [Ctl.step]
      split_ifs
      · exact hf
      · intro o ho
        rcases List.mem_append.1 ho with ho | ho
        · exact hf o ho
        · exact i3 o ho
    · simp only [Ctl.step]
      split_ifs
      · exact hr
      · intro o ho
        rcases List.mem_append.1 ho with ho | ho
        · exact List.mem_append_left _ (hr o ho)
        · exact List.mem_append_right _ (i4 o ho)

theorem init_accounted {S : Type} (l : Lang S) (pats : List Nat) (s0 : S) :
    ∀ o ∈ (Ctl.init pats s0).overlays, Accounted l pats s0 o := by
  intro o ho
  simp only [Ctl.init, List.mem_singleton] at ho
  subst ho
  exact ⟨rfl, by simp [fresh], rfl⟩

/-! ### Availability -/

theorem loop_mem {S : Type} (l : Lang S) (c : Cfg) (hc : c.once = false) (e : Event)
    (os : List (Overlay S)) (o : Overlay S) (ho : o ∈ os) (hg : o.gone c.vol e.dead = false)
    (ht : c.tsc = 0 ∨ o.birth = 0 ∨ e.now ≤ o.birth + c.tsc) :
    (o.reduce l e.now e.inp).this ∈ (loop l c e os).kept ∧
    (∀ x ∈ (o.reduce l e.now e.inp).off, x ∈ (loop l c e os).off) ∧
    (∀ x ∈ (o.reduce l e.now e.inp).full, x ∈ (loop l c e os).full) := by
  induction os with
  | nil => simp at ho
  | cons o' os ih =>
    rcases List.mem_cons.1 ho with rfl | ho
    · have ht' : ¬ (0 < c.tsc ∧ 0 < o.birth ∧ c.tsc < e.now - o.birth) := by omega
      simp only [loop, hg, Bool.false_eq_true, if_false, ht', hc, Bool.and_false]
      refine ⟨by simp, ?_, ?_⟩ <;> intro x hx <;> simp only [Option.mem_def] at hx <;> simp [hx]
    · obtain ⟨i1, i2, i3⟩ := ih ho
      simp only [loop, hc, Bool.and_false, Bool.false_eq_true, if_false]
      split_ifs
      · exact ⟨i1, i2, i3⟩
      · exact ⟨i1, i2, i3⟩
      · exact ⟨List.mem_cons_of_mem _ i1, fun x hx => List.mem_append_right _ (i2 x hx),
          fun x hx => List.mem_append_right _ (i3 x hx)⟩
      · exact ⟨List.mem_cons_of_mem _ i1, fun x hx => List.mem_append_right _ (i2 x hx),
          fun x hx => List.mem_append_right _ (i3 x hx)⟩

theorem loop_alive {S : Type} (l : Lang S) (c : Cfg) (hc : c.once = false) (e : Event)
    (os : List (Overlay S)) : (loop l c e os).alive = true := by
  induction os with
  | nil => rfl
  | cons o os ih =>
    simp only [loop, hc, Bool.and_false, Bool.false_eq_true, if_false]
    split_ifs <;> exact ih

theorem same_refl {S : Type} (o : Overlay S) (h : o.invalid = false) : Same o o :=
  ⟨rfl, rfl, rfl, rfl, List.Perm.refl _, h⟩

theorem not_gone {S : Type} {o : Overlay S} {vol : Bool} {dead : Nat → Bool}
    (h : o.gone vol dead = false) : o.invalid = false := by
  simp only [Overlay.gone, Bool.or_eq_false_iff] at h
  exact h.1

theorem step_keeps {S : Type} (l : Lang S) (c : Cfg) (hc : c.once = false) (x : Ctl S) (e : Event)
    (o : Overlay S) (ho : o ∈ x.overlays) (hg : o.gone c.vol e.dead = false)
    (ht : c.tsc = 0 ∨ o.birth = 0 ∨ e.now ≤ o.birth + c.tsc) :
    ∃ o' ∈ (x.step l c e).overlays, Same o o' := by
  simp only [Ctl.step]
  split_ifs with h
  · exact ⟨o, ho, same_refl o (not_gone hg)⟩
  obtain ⟨h1, h2, _⟩ := loop_mem l c hc e x.overlays o ho hg ht
  cases hm : o.matchInput l e.inp with
  | none =>
    refine ⟨o, ?_, same_refl o (not_gone hg)⟩
    have : (o.reduce l e.now e.inp).this = o := by simp [Overlay.reduce, hm]
    rw [this] at h1
    exact List.mem_append_right _ h1
  | some r =>
    obtain ⟨p, o'⟩ := r
    refine ⟨o.offspring o' p, ?_, offspring_same l o o' e.inp p hm⟩
    apply List.mem_append_left
    rw [List.mem_reverse]
    apply h2
    simp only [Overlay.reduce, hm]
    split_ifs <;> simp

theorem run_alive {S : Type} (l : Lang S) (c : Cfg) (hc : c.once = false) (es : List Event)
    (x : Ctl S) (h : x.alive = true) : (run l c x es).alive = true := by
  induction es generalizing x with
  | nil => exact h
  | cons e es ih =>
    simp only [run, List.foldl_cons]
    apply ih
    simp only [Ctl.step]
    split_ifs
    · exact h
    · exact loop_alive l c hc e x.overlays

theorem full_mono {S : Type} (l : Lang S) (c : Cfg) (es : List Event) (x : Ctl S) (o : Overlay S)
    (h : o ∈ x.full) : o ∈ (run l c x es).full := by
  induction es generalizing x with
  | nil => exact h
  | cons e es ih =>
    simp only [run, List.foldl_cons]
    apply ih
    simp only [Ctl.step]
    split_ifs
    · exact h
    · simp [h]

theorem complete {S : Type} (l : Lang S) (hu : Unambiguous l) (c : Cfg) (hc : c.once = false)
    (es : List Event) (x : Ctl S) (o : Overlay S) (ch : List (Event × Nat)) (hx : x.alive = true)
    (ho : o ∈ x.overlays) (hv : o.invalid = false) (hne : ch ≠ [])
    (hsort : es.Pairwise (fun e e' => e.now ≤ e'.now))
    (hsub : (ch.map Prod.fst).Sublist es)
    (hdead : ∀ e ∈ es, (∀ v ∈ o.views, e.dead v = false) ∧ ∀ y ∈ ch, e.dead y.1.inp = false)
    (htime : c.tsc = 0 ∨ (0 < o.birth ∧ ∀ y ∈ ch, y.1.now ≤ o.birth + c.tsc) ∨
      (o.birth = 0 ∧ ∀ y ∈ ch.head?, 0 < y.1.now ∧ ∀ z ∈ ch, z.1.now ≤ y.1.now + c.tsc))
    (rem : List Nat) (hrem : o.rem.Perm rem) (hb : Builds l o.st o.views rem ch) :
    ∃ y ∈ (run l c x es).full, y.used = o.used ++ ch.map fun x => (x.1.inp, x.2) := by
  induction es generalizing x o ch rem with
  | nil =>
    cases ch with
    | nil => exact absurd rfl hne
    | cons y ch => simp at hsub
  | cons e es ih =>
    obtain ⟨⟨e0, p⟩, ch, rfl⟩ : ∃ y t, ch = y :: t := by
      cases ch with
      | nil => exact absurd rfl hne
      | cons y t => exact ⟨y, t, rfl⟩
    obtain ⟨hle, hsort'⟩ := List.pairwise_cons.1 hsort
    obtain ⟨hmem, s', htry, hrest⟩ := hb
    have hgone : o.gone c.vol e.dead = false := by
      simp only [Overlay.gone, hv, Bool.false_or, Bool.and_eq_false_iff]
      right
      rw [List.any_eq_false]
      intro v hvv
      simp [(hdead e (by simp)).1 v hvv]
    have hstepalive : (x.step l c e).alive = true := by
      simp only [Ctl.step]
      split_ifs
      · exact hx
      · exact loop_alive l c hc e x.overlays
    have hle0 : e.now ≤ e0.now := by
      have : e0 ∈ e :: es := hsub.subset (by simp)
      rcases List.mem_cons.1 this with h | h
      · rw [h]; exact Nat.le_refl _
      · exact hle e0 h
    have hscope : c.tsc = 0 ∨ o.birth = 0 ∨ e.now ≤ o.birth + c.tsc := by
      rcases htime with h | ⟨_, h⟩ | ⟨h, _⟩
      · exact Or.inl h
      · have := h (e0, p) (by simp)
        right; right
        exact Nat.le_trans hle0 this
      · exact Or.inr (Or.inl h)
    by_cases htake : e = e0 ∧ (ch.map Prod.fst).Sublist es
    · obtain ⟨rfl, hsub'⟩ := htake
      have hdi : e.dead e.inp = false := (hdead e (by simp)).2 (e, p) (by simp)
      have hp : p ∈ o.rem := hrem.mem_iff.2 hmem
      have hall := tryAll_unique l hu o.st o.views e.inp p s' o.rem hp htry
      have hm : o.matchInput l e.inp = some (p, o.take e.inp p s') := by
        simp only [Overlay.matchInput, hall]
      obtain ⟨h1, _, h3⟩ := loop_mem l c hc e x.overlays o ho hgone hscope
      simp only [run, List.foldl_cons]
      have hkept : ∀ y, y ∈ (loop l c e x.overlays).kept → y ∈ (x.step l c e).overlays := by
        intro y hy
        simp [Ctl.step, hx, hdi, hy]
      have hfull : ∀ y, y ∈ (loop l c e x.overlays).full → y ∈ (x.step l c e).full := by
        intro y hy
        simp [Ctl.step, hx, hdi, hy]
      have hlen := hrem.length_eq
      have hle1 := List.length_erase_of_mem hmem
      have hle2 := List.length_erase_of_mem hp
      have hpos := List.length_pos_of_mem hmem
      by_cases hlast : (o.rem.erase p).length = 0
      · have hnil : rem.erase p = [] := List.eq_nil_of_length_eq_zero (by omega)
        have hch : ch = [] := by
          cases ch with
          | nil => rfl
          | cons y t =>
            obtain ⟨e1, q⟩ := y
            exfalso
            rw [hnil] at hrest
            exact absurd hrest.1 (by simp)
        subst hch
        refine ⟨o.take e.inp p s', ?_, by simp [Overlay.take]⟩
        apply full_mono
        apply hfull
        apply h3
        simp only [Overlay.reduce, hm]
        rw [if_pos (by exact hlast)]
        simp
      · have hch : ch ≠ [] := by
          rintro rfl
          have : rem.erase p = [] := hrest
          rw [this] at hle1
          simp only [List.length_nil] at hle1
          omega
        have hthis : (o.reduce l e.now e.inp).this =
            { o.take e.inp p s' with birth := if o.birth = 0 then e.now else o.birth } := by
          simp only [Overlay.reduce, hm]
          rw [if_neg (by exact hlast)]
          rfl
        rw [hthis] at h1
        obtain ⟨y, hy, hyu⟩ := ih (x.step l c e) _ ch hstepalive (hkept _ h1) hv hch hsort' hsub'
          (by
            intro e1 he1
            obtain ⟨d1, d2⟩ := hdead e1 (by simp [he1])
            refine ⟨?_, fun y hy => d2 y (by simp [hy])⟩
            intro v hvv
            rcases List.mem_append.1 hvv with hvv | hvv
            · exact d1 v hvv
            · simp only [List.mem_singleton] at hvv
              rw [hvv]; exact d2 (e, p) (by simp))
          (by
            rcases htime with h | ⟨hb0, h⟩ | ⟨hb0, h⟩
            · exact Or.inl h
            · right; left
              simp only [Nat.ne_of_gt hb0, if_false]
              exact ⟨hb0, fun y hy => h y (by simp [hy])⟩
            · right; left
              simp only [hb0, if_true]
              obtain ⟨h5, h6⟩ := h (e, p) (by simp)
              exact ⟨h5, fun y hy => h6 y (by simp [hy])⟩)
          (rem.erase p) (hrem.erase p) hrest
        exact ⟨y, hy, by rw [hyu]; simp [Overlay.take]⟩
    · have hsub' : (((e0, p) :: ch).map Prod.fst).Sublist es := by
        rw [List.map_cons] at hsub ⊢
        cases hsub with
        | cons _ h => exact h
        | cons_cons _ h => exact absurd ⟨rfl, h⟩ htake
      obtain ⟨o', ho', hs1, hs2, hs3, hs4, hs5, hs6⟩ := step_keeps l c hc x e o ho hgone hscope
      simp only [run, List.foldl_cons]
      rw [← hs1]
      exact ih (x.step l c e) o' ((e0, p) :: ch) hstepalive ho' hs6 (by simp) hsort' hsub'
        (by
          intro e1 he1
          rw [hs2]
          exact hdead e1 (by simp [he1]))
        (by rw [hs4]; exact htime) rem (hs5.trans hrem)
        (by rw [hs3, hs2]; exact ⟨hmem, s', htry, hrest⟩)

/-- C54 as far as it holds, for every program that runs more than once, time scope and stream. Every
overlay accounts for its patterns: matched and remaining ones make up the patterns of the program, and
its state is that of matching its inputs in order. Complete overlays have no pattern left. Only those
inject productions. Every overlay that is still valid and within the time scope stays available,
whatever input it takes. And, if no input fits two patterns, every admissible combination makes a
complete overlay.

Missing: the last part for inputs that fit several patterns. -/
theorem C54_matches_partial {S : Type} (l : Lang S) (c : Cfg) (pats : List Nat) (s : S)
    (es : List Event) (hc : c.once = false) (hne : pats ≠ [])
    (hsort : es.Pairwise (fun e e' => e.now ≤ e'.now)) :
    (∀ o ∈ (run l c (Ctl.init pats s) es).overlays, Accounted l pats s o) ∧
    (∀ o ∈ (run l c (Ctl.init pats s) es).full, Accounted l pats s o ∧ o.rem = []) ∧
    (∀ o ∈ (run l c (Ctl.init pats s) es).fired, o ∈ (run l c (Ctl.init pats s) es).full) ∧
    (∀ o ∈ (run l c (Ctl.init pats s) es).overlays, ∀ e : Event, o.gone c.vol e.dead = false →
      (c.tsc = 0 ∨ o.birth = 0 ∨ e.now ≤ o.birth + c.tsc) →
      ∃ o' ∈ (run l c (Ctl.init pats s) (es ++ [e])).overlays, Same o o') ∧
    (Unambiguous l → ∀ ch, Admissible l c pats s es ch →
      ∃ o ∈ (run l c (Ctl.init pats s) es).full, o.used = ch.map fun x => (x.1.inp, x.2)) := by
  obtain ⟨a1, a2, a3⟩ := run_accounted l c pats s es (Ctl.init pats s) (init_accounted l pats s)
    (by simp [Ctl.init]) (by simp [Ctl.init])
  refine ⟨a1, a2, a3, ?_, ?_⟩
  · intro o ho e hg ht
    have : run l c (Ctl.init pats s) (es ++ [e]) = (run l c (Ctl.init pats s) es).step l c e := by
      simp [run]
    rw [this]
    exact step_keeps l c hc _ e o ho hg ht
  · rintro hu ch ⟨h1, h2, h3, h4⟩
    have hch : ch ≠ [] := by
      rintro rfl
      exact hne h4
    obtain ⟨y, hy, hyu⟩ := complete l hu c hc es (Ctl.init pats s) (fresh pats s) ch rfl
      (by simp [Ctl.init]) rfl hch hsort h1
      (fun e he => ⟨by simp [fresh], h2 e he⟩)
      (by
        by_cases ht : c.tsc = 0
        · exact Or.inl ht
        · right; right
          refine ⟨rfl, fun y hy => ?_⟩
          obtain ⟨g1, g2⟩ := h3 y hy
          exact ⟨g1, g2.resolve_left ht⟩)
      pats (List.Perm.refl _) h4
    exact ⟨y, hy, by simpa [fresh] using hyu⟩

/-- Inputs 10·k+p fit pattern p if the earlier inputs had the same k. -/
def tens : Lang Nat :=
  ⟨fun s vs i p => if i % 10 = p ∧ (vs.length = 1 ∨ s = i / 10) then .success (i / 10) else .failure,
   fun _ => true, fun _ => true⟩

/-- The hypotheses are met: an unambiguous program with two patterns, and a stream from which it makes
two combinations, one in either order; with a short time scope only one. -/
theorem C54_nonvacuous :
    Unambiguous tens ∧
    (run tens ⟨0, false, false⟩ (Ctl.init [1, 2] 0) [⟨1, 31, fun _ => false⟩, ⟨2, 42, fun _ => false⟩,
      ⟨3, 32, fun _ => false⟩, ⟨9, 41, fun _ => false⟩]).fired.map (·.used) =
      [[(31, 1), (32, 2)], [(42, 2), (41, 1)]] ∧
    (run tens ⟨5, false, false⟩ (Ctl.init [1, 2] 0) [⟨1, 31, fun _ => false⟩, ⟨2, 42, fun _ => false⟩,
      ⟨3, 32, fun _ => false⟩, ⟨9, 41, fun _ => false⟩]).fired.map (·.used) = [[(31, 1), (32, 2)]] ∧
    Admissible tens ⟨5, false, false⟩ [1, 2] 0 [⟨1, 31, fun _ => false⟩, ⟨2, 42, fun _ => false⟩,
      ⟨3, 32, fun _ => false⟩] [(⟨1, 31, fun _ => false⟩, 1), (⟨3, 32, fun _ => false⟩, 2)] := by
  refine ⟨?_, by decide, by decide, ?_, by simp, by simp, by decide, 3, rfl, by decide, 3, rfl, rfl⟩
  · intro s vs i p q s1 s2 h1 h2
    simp only [tens] at h1 h2
    split_ifs at h1 with a1
    split_ifs at h2 with a2
    rw [← a1.1, ← a2.1]
  · exact List.Sublist.cons_cons _ (List.Sublist.cons _ (List.Sublist.cons_cons _ (List.Sublist.slnil)))

/-! ## Anti-programs -/

/-- C67 in full: the controller never runs into undefined behaviour; it injects its productions at an
instant only if nothing matched within the time scope before it; it does so at the end of every time
scope, counted from its activation or from a match, without a match; and a program with one pattern
notices every input that fits the pattern and the guards. -/
def C67_full : Prop :=
  ∀ (S : Type) (l : Lang S) (c : Cfg) (pats : List Nat) (s : S) (t0 : Nat) (es : List AEvent),
    c.once = false → pats ≠ [] →
    ∃ x, arun l c pats s (ACtl.init c pats s t0) es = some x ∧
      (∀ t ∈ x.fires, ∀ m ∈ x.matches_, ¬ (t < m + c.tsc ∧ m ≤ t)) ∧
      (∀ m ∈ t0 :: x.matches_, m + c.tsc ∉ x.jobs → (∀ m' ∈ x.matches_, m' ≤ m ∨ m + c.tsc < m') →
        m + c.tsc ∈ x.fires) ∧
      (∀ p, pats = [p] → ∀ (e : Event) (s' : S), e.dead e.inp = false →
        l.try_ s [e.inp] e.inp p = .success s' → l.guards s' = true →
        ∃ y, x.step l c pats s (.input e) = some y ∧ y.matches_ = x.matches_ ++ [e.now])

/-- One pattern, which every input fits; the guards hold for inputs below 100. -/
def any : Lang Nat := ⟨fun _ _ i _ => .success i, fun s => s < 100, fun _ => true⟩

/-- The three ways in which it fails. A match at 105, within the scope that began at 100, does not keep
the productions from being injected at 110. An input that fits the pattern but not the guards makes the
overlay deaf for the inputs after it. And if such an input is invalidated, a volatile program is left
without overlay, and the next signal takes the front of an empty list. -/
theorem C67_anti_violated :
    ¬ C67_full ∧
    (arun any ⟨10, false, false⟩ [1] 0 (ACtl.init ⟨10, false, false⟩ [1] 0 100)
      [.input ⟨105, 5, fun _ => false⟩, .signal 110]).map (fun x => (x.matches_, x.fires)) =
      some ([105], [110]) ∧
    (arun any ⟨10, false, false⟩ [1] 0 (ACtl.init ⟨10, false, false⟩ [1] 0 100)
      [.input ⟨103, 500, fun _ => false⟩, .input ⟨105, 5, fun _ => false⟩]).map
        (fun x => (x.matches_, x.overlays.map (·.rem))) = some ([], [[]]) ∧
    (arun any ⟨10, true, false⟩ [1] 0 (ACtl.init ⟨10, true, false⟩ [1] 0 100)
      [.input ⟨103, 500, fun _ => false⟩, .input ⟨105, 5, fun i => i == 500⟩, .signal 110]).isNone := by
  refine ⟨fun h => ?_, by decide, by decide, by decide⟩
  obtain ⟨x, hx, h2, _⟩ := h Nat any ⟨10, false, false⟩ [1] 0 100
    [.input ⟨105, 5, fun _ => false⟩, .signal 110] rfl (by decide)
  have e : (arun any ⟨10, false, false⟩ [1] 0 (ACtl.init ⟨10, false, false⟩ [1] 0 100)
      [.input ⟨105, 5, fun _ => false⟩, .signal 110]).map (fun x => (x.matches_, x.fires)) =
      some ([105], [110]) := by decide
  rw [hx] at e
  simp only [Option.map_some, Option.some.injEq, Prod.mk.injEq] at e
  have := h2 110 (by rw [e.2]; simp) 105 (by rw [e.1]; simp)
  exact this (by decide)

theorem matchInput_invalid {S : Type} (l : Lang S) (o o' : Overlay S) (i p : Nat)
    (h : o.matchInput l i = some (p, o')) : o'.invalid = o.invalid :=
  (match_spec l o o' i p h).2.2.2.2.2.2

/-- Overlays of anti-programs are never invalidated by themselves; without volatility none is lost. -/
theorem aloop_spec {S : Type} (l : Lang S) (c : Cfg) (e : Event) (os kept offs : List (Overlay S))
    (hv : ∀ o ∈ os, o.invalid = false) (h : aloop l c e os = some (kept, offs)) :
    (∀ o ∈ kept, o.invalid = false) ∧ (∀ o ∈ offs, o.invalid = false) ∧
    (c.vol = false → kept.length = os.length) := by
  induction os generalizing kept offs with
  | nil =>
    simp only [aloop, Option.some.injEq, Prod.mk.injEq] at h
    obtain ⟨rfl, rfl⟩ := h
    simp
  | cons o os ih =>
    have hv' : ∀ x ∈ os, x.invalid = false := fun x hx => hv x (by simp [hx])
    simp only [aloop] at h
    split_ifs at h with hg
    · obtain ⟨i1, i2, _⟩ := ih kept offs hv' h
      refine ⟨i1, i2, fun hvol => ?_⟩
      simp [Overlay.gone, hv o (by simp), hvol] at hg
    · split at h
      · exact absurd h (by simp)
      · rename_i this off hr
        split at h
        · exact absurd h (by simp)
        · rename_i kept' offs' hl
          simp only [Option.some.injEq, Prod.mk.injEq] at h
          obtain ⟨rfl, rfl⟩ := h
          obtain ⟨i1, i2, i3⟩ := ih kept' offs' hv' hl
          have hthis : this.invalid = false ∧ ∀ x ∈ off, x.invalid = false := by
            simp only [Overlay.areduce] at hr
            split at hr
            · cases hr; exact ⟨hv o (by simp), by simp⟩
            · rename_i p o' hm
              have hinv := matchInput_invalid l o o' e.inp p hm
              split_ifs at hr
              · cases hr
                exact ⟨by rw [hinv]; exact hv o (by simp), by simp⟩
              · cases hr
                refine ⟨by rw [hinv]; exact hv o (by simp), ?_⟩
                intro x hx
                simp only [Option.mem_def, Option.some.injEq] at hx
                subst hx; rfl
          refine ⟨?_, ?_, fun hvol => by simp [i3 hvol]⟩
          · intro x hx
            rcases List.mem_cons.1 hx with rfl | hx
            · exact hthis.1
            · exact i1 x hx
          · intro x hx
            rcases List.mem_append.1 hx with hx | hx
            · exact hthis.2 x (by simpa using hx)
            · exact i2 x hx

/-- The invariant of an anti-program that runs more than once. -/
structure AInv {S : Type} (c : Cfg) (t0 : Nat) (x : ACtl S) : Prop where
  alive : x.alive = true
  flag : x.flag = false
  valid : ∀ o ∈ x.overlays, o.invalid = false
  some_left : c.vol = false → x.overlays ≠ []
  count : (x.fires ++ x.jobs).Perm ((t0 :: x.matches_).map (· + c.tsc))

theorem astep_inv {S : Type} (l : Lang S) (c : Cfg) (hc : c.once = false) (pats : List Nat) (s : S)
    (t0 : Nat) (x : ACtl S) (h : AInv c t0 x) (e : AEvent) :
    (c.vol = false → (x.step l c pats s e).isSome) ∧
    ∀ y, x.step l c pats s e = some y → AInv c t0 y := by
  obtain ⟨h1, h2, h3, h4, h5⟩ := h
  cases e with
  | input e =>
    simp only [ACtl.step, h1, Bool.not_true, Bool.false_or]
    split_ifs with hd
    · refine ⟨fun _ => rfl, fun y hy => ?_⟩
      cases hy
      exact ⟨h1, h2, h3, h4, h5⟩
    · split
      · refine ⟨fun _ => rfl, fun y hy => ?_⟩
        cases hy
        refine ⟨rfl, rfl, by simp [fresh], by simp, ?_⟩
        simp only [List.map_cons, List.map_append, List.map_nil, ← List.append_assoc] at h5 ⊢
        rw [← List.cons_append]
        exact h5.append_right _
      · rename_i kept offs hl
        obtain ⟨a1, a2, a3⟩ := aloop_spec l c e x.overlays kept offs h3 hl
        refine ⟨fun _ => rfl, fun y hy => ?_⟩
        cases hy
        refine ⟨rfl, h2, ?_, ?_, h5⟩
        · intro o ho
          rcases List.mem_append.1 ho with ho | ho
          · exact a2 o (by simpa using ho)
          · exact a1 o ho
        · intro hvol hnil
          have hlen := a3 hvol
          have h0 : kept = [] := (List.append_eq_nil_iff.1 hnil).2
          rw [h0] at hlen
          simp only [List.length_nil] at hlen
          exact h4 hvol (List.eq_nil_of_length_eq_zero hlen.symm)
  | signal t =>
    simp only [ACtl.step]
    by_cases hj : t ∉ x.jobs
    · rw [if_pos hj]
      refine ⟨fun _ => rfl, fun y hy => ?_⟩
      cases hy
      exact ⟨h1, h2, h3, h4, h5⟩
    · rw [if_neg hj]
      simp only [h1, h2, hc, Bool.not_true, Bool.false_eq_true, if_false, Bool.not_false]
      cases ho : x.overlays with
      | nil => exact ⟨fun hvol => absurd ho (h4 hvol), fun y hy => absurd hy (by simp)⟩
      | cons o os =>
        refine ⟨fun _ => rfl, fun y hy => ?_⟩
        simp only [Option.some.injEq] at hy
        subst hy
        refine ⟨rfl, rfl, by simp [fresh], by simp, ?_⟩
        have hmem : t ∈ x.jobs := by simpa using hj
        refine List.Perm.trans ?_ h5
        simp only [List.append_assoc, List.singleton_append]
        exact List.Perm.append_left _ (List.perm_cons_erase hmem).symm

theorem arun_inv {S : Type} (l : Lang S) (c : Cfg) (hc : c.once = false) (pats : List Nat) (s : S)
    (t0 : Nat) (es : List AEvent) (x : ACtl S) (h : AInv c t0 x) :
    (c.vol = false → (arun l c pats s x es).isSome) ∧
    ∀ y, arun l c pats s x es = some y → AInv c t0 y := by
  induction es generalizing x with
  | nil =>
    refine ⟨fun _ => rfl, fun y hy => ?_⟩
    simp only [arun, Option.some.injEq] at hy
    subst hy; exact h
  | cons e es ih =>
    obtain ⟨g1, g2⟩ := astep_inv l c hc pats s t0 x h e
    constructor
    · intro hvol
      obtain ⟨y, hy⟩ := Option.isSome_iff_exists.1 (g1 hvol)
      simp only [arun, hy, Option.bind_some]
      exact (ih y (g2 y hy)).1 hvol
    · intro y hy
      simp only [arun] at hy
      obtain ⟨z, hz, hy⟩ := Option.bind_eq_some_iff.1 hy
      exact (ih z (g2 z hz)).2 y hy

theorem ainit_inv {S : Type} (c : Cfg) (pats : List Nat) (s : S) (t0 : Nat) :
    AInv c t0 (ACtl.init c pats s t0) :=
  ⟨rfl, rfl, by simp [ACtl.init, fresh], by simp [ACtl.init], by simp [ACtl.init]⟩

/-- An overlay of an anti-program whose guards always hold either stays available or the program is
restarted. -/
theorem aloop_keeps {S : Type} (l : Lang S) (c : Cfg) (hg : ∀ s, l.guards s = true) (e : Event)
    (os : List (Overlay S)) (o : Overlay S) (ho : o ∈ os) (hgone : o.gone c.vol e.dead = false) :
    (∀ p o', o.matchInput l e.inp = some (p, o') → o'.rem.length = 0 → aloop l c e os = none) ∧
    ∀ kept offs, aloop l c e os = some (kept, offs) → ∃ o' ∈ offs.reverse ++ kept, Same o o' := by
  induction os with
  | nil => simp at ho
  | cons a os ih =>
    by_cases hga : a.gone c.vol e.dead = true
    · have hne : o ∈ os := by
        rcases List.mem_cons.1 ho with rfl | ho
        · rw [hgone] at hga; exact absurd hga (by simp)
        · exact ho
      simp only [aloop, hga, if_true]
      exact ih hne
    · simp only [aloop, hga]
      rcases List.mem_cons.1 ho with rfl | ho
      · constructor
        · intro p o' hm hl
          simp [Overlay.areduce, hm, hl, hg]
        · intro kept offs h
          simp only [Bool.false_eq_true, if_false] at h
          split at h
          · exact absurd h (by simp)
          · rename_i this off hr
            split at h
            · exact absurd h (by simp)
            · rename_i kept' offs' hl
              simp only [Option.some.injEq, Prod.mk.injEq] at h
              obtain ⟨rfl, rfl⟩ := h
              simp only [Overlay.areduce] at hr
              split at hr
              · cases hr
                exact ⟨o, by simp, same_refl o (not_gone hgone)⟩
              · rename_i p o' hm
                simp only [hg, if_true] at hr
                split_ifs at hr
                cases hr
                exact ⟨o.offspring this p, by simp, offspring_same l o this e.inp p hm⟩
      · obtain ⟨i1, i2⟩ := ih ho
        constructor
        · intro p o' hm hl
          simp only [Bool.false_eq_true, if_false, i1 p o' hm hl]
          split <;> rfl
        · intro kept offs h
          simp only [Bool.false_eq_true, if_false] at h
          split at h
          · exact absurd h (by simp)
          · split at h
            · exact absurd h (by simp)
            · rename_i kept' offs' hl
              simp only [Option.some.injEq, Prod.mk.injEq] at h
              obtain ⟨rfl, rfl⟩ := h
              obtain ⟨o', ho', hs⟩ := i2 kept' offs' hl
              refine ⟨o', ?_, hs⟩
              simp only [List.reverse_append, List.mem_append, List.mem_reverse, List.mem_cons] at ho' ⊢
              rcases ho' with h | h
              · exact Or.inl (Or.inl h)
              · exact Or.inr (Or.inr h)

/-- A program whose guards always hold keeps an overlay that has matched nothing. -/
theorem arun_fresh {S : Type} (l : Lang S) (c : Cfg) (hc : c.once = false) (hg : ∀ s, l.guards s = true)
    (pats : List Nat) (s : S) (es : List AEvent) (x y : ACtl S)
    (hx : ∃ o ∈ x.overlays, Same (fresh pats s) o) (h : arun l c pats s x es = some y) :
    ∃ o ∈ y.overlays, Same (fresh pats s) o := by
  induction es generalizing x with
  | nil =>
    simp only [arun, Option.some.injEq] at h
    subst h; exact hx
  | cons e es ih =>
    simp only [arun] at h
    obtain ⟨z, hz, h⟩ := Option.bind_eq_some_iff.1 h
    refine ih z ?_ h
    cases e with
    | input e =>
      simp only [ACtl.step] at hz
      split_ifs at hz
      · cases hz; exact hx
      · split at hz
        · cases hz
          exact ⟨fresh pats s, by simp, same_refl _ rfl⟩
        · rename_i kept offs hl
          cases hz
          obtain ⟨o, ho, hs⟩ := hx
          have hgone : o.gone c.vol e.dead = false := by
            simp [Overlay.gone, hs.2.2.2.2.2, hs.2.1, fresh]
          obtain ⟨o', ho', hs'⟩ := (aloop_keeps l c hg e x.overlays o ho hgone).2 kept offs hl
          refine ⟨o', ho', ?_⟩
          obtain ⟨a1, a2, a3, a4, a5, a6⟩ := hs
          obtain ⟨b1, b2, b3, b4, b5, b6⟩ := hs'
          exact ⟨b1.trans a1, b2.trans a2, b3.trans a3, b4.trans a4, b5.trans a5, b6⟩
    | signal t =>
      simp only [ACtl.step] at hz
      by_cases hj : t ∉ x.jobs
      · rw [if_pos hj] at hz
        cases hz; exact hx
      · rw [if_neg hj] at hz
        by_cases ha : (!x.alive) = true
        · rw [if_pos ha] at hz
          cases hz; exact hx
        · rw [if_neg ha] at hz
          by_cases hf : x.flag = true
          · rw [if_pos hf] at hz
            cases hz; exact hx
          · rw [if_neg hf] at hz
            split at hz
            · exact absurd hz (by simp)
            · simp only [Option.some.injEq] at hz
              subst hz
              exact ⟨fresh pats s, by simp [hc], same_refl _ rfl⟩

/-- C67 as far as it holds, for every anti-program that runs more than once and every history. There is
no undefined behaviour unless the program is volatile. The productions are injected exactly one time
scope after the activation and after each match, whether or not something matched in between: so at
the end of each time scope without a match, but not at later ones. If the guards always hold, a
program with one pattern notices every input that fits it. -/
theorem C67_anti_partial {S : Type} (l : Lang S) (c : Cfg) (pats : List Nat) (s : S) (t0 : Nat)
    (es : List AEvent) (hc : c.once = false) :
    (c.vol = false → (arun l c pats s (ACtl.init c pats s t0) es).isSome) ∧
    ∀ x, arun l c pats s (ACtl.init c pats s t0) es = some x →
      (x.fires ++ x.jobs).Perm ((t0 :: x.matches_).map (· + c.tsc)) ∧
      (∀ m ∈ t0 :: x.matches_, m + c.tsc ∉ x.jobs → m + c.tsc ∈ x.fires) ∧
      ((∀ s, l.guards s = true) → ∀ p, pats = [p] → ∀ (e : Event) (s' : S), e.dead e.inp = false →
        l.try_ s [e.inp] e.inp p = .success s' →
        ∃ y, x.step l c pats s (.input e) = some y ∧ y.matches_ = x.matches_ ++ [e.now]) := by
  obtain ⟨h1, h2⟩ := arun_inv l c hc pats s t0 es _ (ainit_inv c pats s t0)
  refine ⟨h1, fun x hx => ?_⟩
  have hi := h2 x hx
  refine ⟨hi.count, ?_, ?_⟩
  · intro m hm hj
    have : m + c.tsc ∈ (t0 :: x.matches_).map (· + c.tsc) := List.mem_map.2 ⟨m, hm, rfl⟩
    rcases List.mem_append.1 (hi.count.mem_iff.2 this) with h | h
    · exact h
    · exact absurd h hj
  · intro hg p hp e s' hd ht
    subst hp
    obtain ⟨o, ho, hs⟩ := arun_fresh l c hc hg [p] s es _ x
      ⟨fresh [p] s, by simp [ACtl.init], same_refl _ rfl⟩ hx
    obtain ⟨a1, a2, a3, a4, a5, a6⟩ := hs
    have hgone : o.gone c.vol e.dead = false := by simp [Overlay.gone, a6, a2, fresh]
    have hrem : o.rem = [p] := List.perm_singleton.1 a5
    have hm : o.matchInput l e.inp = some (p, o.take e.inp p s') := by
      have hst : o.st = s := a3
      have hvw : o.views = [] := a2
      simp only [Overlay.matchInput, hrem, tryAll, hst, hvw, List.nil_append, ht]
    have hnone := (aloop_keeps l c hg e x.overlays o ho hgone).1 p _ hm (by simp [hrem, Overlay.take])
    simp only [ACtl.step, hi.alive, Bool.not_true, Bool.false_or, hd, Bool.false_eq_true, if_false,
      hnone]
    exact ⟨_, rfl, rfl⟩

/-- The hypotheses are met: no match in the first scope, then one. -/
theorem C67_nonvacuous :
    (arun any ⟨10, false, false⟩ [1] 0 (ACtl.init ⟨10, false, false⟩ [1] 0 100)
      [.signal 110, .input ⟨115, 5, fun _ => false⟩, .signal 125]).map
        (fun x => (x.matches_, x.fires, x.jobs)) = some ([115], [110, 125], []) := by decide

end Verif.Pgm
