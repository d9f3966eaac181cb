import Verif.Pgm.Props
/-!
# C73: when a program fires
-/
namespace Verif.Pgm

/-- The guards hold and the productions are injected for a complete overlay. -/
def holds {S : Type} (l : Lang S) (o : Overlay S) : Bool := l.guards o.st && l.inject o.st

/-- C73: the combinations of inputs that fired are, in order, the complete ones whose guards hold; a
program that runs once fires at most once and does nothing afterwards; a program that does not keeps
going; when no input is taken twice, no combination of inputs is completed twice. -/
def C73 : Prop :=
  ∀ (S : Type) (l : Lang S) (c : Cfg) (pats : List Nat) (s : S) (es : List Event),
    let x := run l c (Ctl.init pats s) es
    x.fired = x.full.filter (fun o => l.guards o.st && l.inject o.st) ∧
    (c.once = true → x.fired.length ≤ 1 ∧ (x.alive = false ↔ x.fired ≠ []) ∧
      (x.fired ≠ [] → ∀ more, run l c (Ctl.init pats s) (es ++ more) = x)) ∧
    (c.once = false → x.alive = true) ∧
    ((es.map (·.inp)).Nodup → (x.full.map (·.used)).Nodup)

theorem reduce_fired {S : Type} (l : Lang S) (o : Overlay S) (now i : Nat) :
    (if (o.reduce l now i).fired then (o.reduce l now i).full.toList else []) =
      (o.reduce l now i).full.toList.filter (holds l) ∧
    ((o.reduce l now i).fired = true → ∃ y, (o.reduce l now i).full = some y ∧ holds l y = true) := by
  cases hm : o.matchInput l i with
  | none =>
    have hr : o.reduce l now i = ⟨o, none, none, false⟩ := by simp only [Overlay.reduce, hm]
    rw [hr]; simp
  | some r =>
    obtain ⟨p, o'⟩ := r
    by_cases h : o'.rem.length = 0
    · have hr : o.reduce l now i = ⟨{ o' with invalid := true }, some (o.offspring o' p), some o',
          l.guards o'.st && l.inject o'.st⟩ := by simp only [Overlay.reduce, hm, if_pos h]
      rw [hr]
      have hh : holds l o' = (l.guards o'.st && l.inject o'.st) := rfl
      by_cases g : holds l o' = true
      · rw [← hh, if_pos g]; simp [g]
      · rw [← hh, if_neg g]; simp [g]
    · have hr : o.reduce l now i = ⟨{ o' with birth := if o'.birth = 0 then now else o'.birth },
          some (o.offspring o' p), none, false⟩ := by simp only [Overlay.reduce, hm, if_neg h]
      rw [hr]; simp

/-- What the loop says of the overlays that fire. -/
theorem loop_fired {S : Type} (l : Lang S) (c : Cfg) (e : Event) (os : List (Overlay S)) :
    (loop l c e os).fired = (loop l c e os).full.filter (holds l) ∧
    (c.once = true → (loop l c e os).fired.length ≤ 1 ∧
      ((loop l c e os).alive = false ↔ (loop l c e os).fired ≠ [])) := by
  induction os with
  | nil => simp [loop]
  | cons o os ih =>
    obtain ⟨r1, r2⟩ := reduce_fired l o e.now e.inp
    simp only [loop]
    split_ifs with g1 g2 g3 g4 g5
    · exact ih
    · exact ih
    · rw [if_pos g4] at r1
      obtain ⟨y, hy, _⟩ := r2 g4
      refine ⟨r1, fun _ => ?_⟩
      simp [hy]
    · simp [g4] at g3
    · rw [if_pos g5] at r1
      refine ⟨by rw [List.filter_append, ← r1, ih.1], fun ho => ?_⟩
      simp [g5, ho] at g3
    · rw [if_neg g5] at r1
      refine ⟨by rw [List.filter_append, ← r1, ih.1], fun ho => ?_⟩
      simpa using ih.2 ho

theorem step_fired {S : Type} (l : Lang S) (c : Cfg) (x : Ctl S) (e : Event)
    (h : x.fired = x.full.filter (holds l)) :
    (x.step l c e).fired = (x.step l c e).full.filter (holds l) := by
  simp only [Ctl.step]
  split_ifs
  · exact h
  · simp only [List.filter_append, ← h, (loop_fired l c e x.overlays).1]

theorem step_once {S : Type} (l : Lang S) (c : Cfg) (ho : c.once = true) (x : Ctl S) (e : Event)
    (h : x.fired.length ≤ 1 ∧ (x.alive = false ↔ x.fired ≠ [])) :
    (x.step l c e).fired.length ≤ 1 ∧ ((x.step l c e).alive = false ↔ (x.step l c e).fired ≠ []) := by
  simp only [Ctl.step]
  split_ifs with g
  · exact h
  · have ha : x.alive = true := by
      simp only [Bool.or_eq_true, Bool.not_eq_true', not_or] at g
      simpa using g.1
    have hf : x.fired = [] := by
      by_contra hne
      rw [h.2.2 hne] at ha
      exact absurd ha (by simp)
    simpa [hf] using (loop_fired l c e x.overlays).2 ho

theorem run_dead {S : Type} (l : Lang S) (c : Cfg) (x : Ctl S) (es : List Event)
    (h : x.alive = false) : run l c x es = x := by
  induction es with
  | nil => rfl
  | cons e es ih =>
    have : x.step l c e = x := by simp [Ctl.step, h]
    simp only [run, List.foldl_cons, this]
    exact ih

/-! ### No combination twice -/

/-- The overlay after its reduction, its offspring and the complete overlay. -/
theorem reduce_used {S : Type} (l : Lang S) (o : Overlay S) (now i : Nat) :
    ((o.reduce l now i).this = o ∧ (o.reduce l now i).off = none ∧ (o.reduce l now i).full = none) ∨
    ∃ p y, (o.reduce l now i).this.used = o.used ++ [(i, p)] ∧
      (o.reduce l now i).off = some y ∧ y.used = o.used ∧
      ∀ z ∈ (o.reduce l now i).full, z.used = o.used ++ [(i, p)] := by
  simp only [Overlay.reduce]
  cases hm : o.matchInput l i with
  | none => exact .inl ⟨rfl, rfl, rfl⟩
  | some r =>
    obtain ⟨p, o'⟩ := r
    simp only
    obtain ⟨_, _, _, _, h5, _⟩ := match_spec l o o' i p hm
    have h6 := (offspring_same l o o' i p hm).1
    right
    by_cases h : o'.rem.length = 0
    · rw [if_pos h]
      exact ⟨p, _, h5, rfl, h6, by simp [h5]⟩
    · rw [if_neg h]
      exact ⟨p, _, h5, rfl, h6, by simp⟩

/-- All inputs of a combination are among those taken. -/
def From {S : Type} (past : List Nat) (o : Overlay S) : Prop := ∀ u ∈ o.used, u.1 ∈ past

/-- Combinations that come from the overlays `os` at an input `i`. -/
def Derived {S : Type} (i : Nat) (os : List (Overlay S)) (u : List (Nat × Nat)) : Prop :=
  ∃ o ∈ os, u = o.used ∨ ∃ p, u = o.used ++ [(i, p)]

theorem derived_disjoint {S : Type} (i : Nat) (past : List Nat) (hi : i ∉ past) (o : Overlay S)
    (os : List (Overlay S)) (hp : ∀ x ∈ o :: os, From past x)
    (hn : ((o :: os).map (·.used)).Nodup) (u : List (Nat × Nat)) (h1 : Derived i [o] u)
    (h2 : Derived i os u) : False := by
  obtain ⟨o1, ho1, h1⟩ := h1
  rw [List.mem_singleton] at ho1
  subst ho1
  obtain ⟨o2, ho2, h2⟩ := h2
  have hne : o1.used ≠ o2.used := by
    intro he
    rw [List.map_cons, List.nodup_cons] at hn
    exact hn.1 (List.mem_map.2 ⟨o2, ho2, he.symm⟩)
  have f1 := hp o1 (by simp)
  have f2 := hp o2 (by simp [ho2])
  rcases h1 with rfl | ⟨p, rfl⟩ <;> rcases h2 with h2 | ⟨q, h2⟩
  · exact hne h2
  · exact hi (f1 (i, q) (by simp [h2]))
  · exact hi (f2 (i, p) (by simp [← h2]))
  · have := List.append_inj' h2 rfl
    exact hne this.1

/-- The combinations in the lists the loop returns: an old one, or an old one with the new input. -/
theorem loop_used {S : Type} (l : Lang S) (c : Cfg) (e : Event) (past : List Nat)
    (hi : e.inp ∉ past) (os : List (Overlay S)) (hp : ∀ o ∈ os, From past o)
    (hn : (os.map (·.used)).Nodup) :
    (((loop l c e os).off ++ (loop l c e os).kept).map (·.used)).Nodup ∧
    ((loop l c e os).full.map (·.used)).Nodup ∧
    (∀ u ∈ ((loop l c e os).off ++ (loop l c e os).kept).map (·.used), Derived e.inp os u) ∧
    (∀ u ∈ (loop l c e os).full.map (·.used), Derived e.inp os u ∧ ∃ w ∈ u, w.1 = e.inp) := by
  induction os with
  | nil => simp [loop]
  | cons o os ih =>
    have hdis := derived_disjoint e.inp past hi o os hp hn
    have hup : ∀ u, Derived e.inp os u → Derived e.inp (o :: os) u := fun u ⟨x, hx, h⟩ =>
      ⟨x, List.mem_cons_of_mem _ hx, h⟩
    have hup1 : ∀ u, Derived e.inp [o] u → Derived e.inp (o :: os) u := fun u ⟨x, hx, h⟩ =>
      ⟨x, by rw [List.mem_singleton] at hx; simp [hx], h⟩
    have hn' : (os.map (·.used)).Nodup := (List.nodup_cons.1 (by simpa using hn)).2
    obtain ⟨i1, i2, i3, i4⟩ := ih (fun x hx => hp x (List.mem_cons_of_mem _ hx)) hn'
    -- what the overlay itself contributes
    have hr : (((o.reduce l e.now e.inp).off.toList ++ [(o.reduce l e.now e.inp).this]).map
          (·.used)).Nodup ∧
        ((o.reduce l e.now e.inp).full.toList.map (·.used)).Nodup ∧
        (∀ u ∈ ((o.reduce l e.now e.inp).off.toList ++ [(o.reduce l e.now e.inp).this]).map
          (·.used), Derived e.inp [o] u) ∧
        (∀ u ∈ (o.reduce l e.now e.inp).full.toList.map (·.used),
          Derived e.inp [o] u ∧ ∃ w ∈ u, w.1 = e.inp) := by
      have hfn : ((o.reduce l e.now e.inp).full.toList.map (·.used)).Nodup := by
        cases (o.reduce l e.now e.inp).full <;> simp
      rcases reduce_used l o e.now e.inp with ⟨h1, h2, h3⟩ | ⟨p, y, h1, h2, h3, h4⟩
      · rw [h1, h2, h3]
        refine ⟨by simp, by simp, ?_, by simp⟩
        intro u hu
        exact ⟨o, by simp, .inl (by simpa using hu)⟩
      · refine ⟨?_, hfn, ?_, ?_⟩
        · rw [h2]
          simp only [Option.toList_some, List.singleton_append, List.map_cons, List.map_nil, h1, h3]
          rw [List.nodup_cons]
          refine ⟨?_, by simp⟩
          simp
        · intro u hu
          rw [h2] at hu
          simp only [Option.toList_some, List.singleton_append, List.map_cons, List.map_nil, h1, h3,
            List.mem_cons, List.not_mem_nil, or_false] at hu
          rcases hu with hu | hu
          · exact ⟨o, by simp, .inl hu⟩
          · exact ⟨o, by simp, .inr ⟨p, hu⟩⟩
        · intro u hu
          obtain ⟨z, hz, rfl⟩ := List.mem_map.1 hu
          have := h4 z (by simpa using hz)
          exact ⟨⟨o, by simp, .inr ⟨p, this⟩⟩, (e.inp, p), by simp [this], rfl⟩
    obtain ⟨r1, r2, r3, r4⟩ := hr
    -- joining with the rest
    have join : ∀ (F G : List (Overlay S)), (F.map (·.used)).Nodup → (G.map (·.used)).Nodup →
        (∀ u ∈ F.map (·.used), Derived e.inp [o] u) → (∀ u ∈ G.map (·.used), Derived e.inp os u) →
        ((F ++ G).map (·.used)).Nodup := by
      intro F G hF hG dF dG
      rw [List.map_append, List.nodup_append]
      refine ⟨hF, hG, ?_⟩
      rintro a ha b hb rfl
      exact hdis a (dF a ha) (dG a hb)
    have self : ∀ u ∈ os.map (·.used), Derived e.inp os u := by
      intro u hu
      obtain ⟨x, hx, rfl⟩ := List.mem_map.1 hu
      exact ⟨x, hx, .inl rfl⟩
    have perm : ∀ (F A K : List (Overlay S)) (t : Overlay S),
        (((F ++ A) ++ (t :: K)).map (·.used)).Perm (((F ++ [t]) ++ (A ++ K)).map (·.used)) := by
      intro F A K t
      apply List.Perm.map
      rw [List.append_assoc, List.append_assoc]
      apply List.Perm.append_left
      exact List.perm_middle
    simp only [loop]
    split_ifs with g1 g2 g3 g4 g5
    · exact ⟨i1, i2, fun u hu => hup u (i3 u hu), fun u hu => ⟨hup u (i4 u hu).1, (i4 u hu).2⟩⟩
    · exact ⟨i1, i2, fun u hu => hup u (i3 u hu), fun u hu => ⟨hup u (i4 u hu).1, (i4 u hu).2⟩⟩
    iterate 2
      have hp' := perm (o.reduce l e.now e.inp).off.toList [] os (o.reduce l e.now e.inp).this
      rw [List.append_nil, List.nil_append] at hp'
      refine ⟨?_, r2, ?_, fun u hu => ⟨hup1 u (r4 u hu).1, (r4 u hu).2⟩⟩
      · exact hp'.nodup_iff.2 (join _ _ r1 hn' r3 self)
      · intro u hu
        rw [hp'.mem_iff, List.map_append] at hu
        rcases List.mem_append.1 hu with hu | hu
        · exact hup1 u (r3 u hu)
        · exact hup u (self u hu)
    all_goals
      have hp' := perm (o.reduce l e.now e.inp).off.toList (loop l c e os).off (loop l c e os).kept
        (o.reduce l e.now e.inp).this
      refine ⟨?_, ?_, ?_, ?_⟩
      · exact hp'.nodup_iff.2 (join _ _ r1 i1 r3 i3)
      · exact join _ _ r2 i2 (fun u hu => (r4 u hu).1) (fun u hu => (i4 u hu).1)
      · intro u hu
        rw [hp'.mem_iff, List.map_append] at hu
        rcases List.mem_append.1 hu with hu | hu
        · exact hup1 u (r3 u hu)
        · exact hup u (i3 u hu)
      · intro u hu
        rw [List.map_append] at hu
        rcases List.mem_append.1 hu with hu | hu
        · exact ⟨hup1 u (r4 u hu).1, (r4 u hu).2⟩
        · exact ⟨hup u (i4 u hu).1, (i4 u hu).2⟩

theorem run_nodup {S : Type} (l : Lang S) (c : Cfg) (es : List Event) (x : Ctl S) (past : List Nat)
    (ho : ∀ o ∈ x.overlays, From past o) (hf : ∀ o ∈ x.full, From past o)
    (hn : (x.overlays.map (·.used)).Nodup) (hfn : (x.full.map (·.used)).Nodup)
    (hi : (es.map (·.inp)).Nodup) (hp : ∀ e ∈ es, e.inp ∉ past) :
    ((run l c x es).full.map (·.used)).Nodup := by
  induction es generalizing x past with
  | nil => exact hfn
  | cons e es ih =>
    simp only [run, List.foldl_cons]
    rw [List.map_cons, List.nodup_cons] at hi
    have hw : ∀ o : Overlay S, From past o → From (e.inp :: past) o := fun o h u hu =>
      List.mem_cons_of_mem _ (h u hu)
    have hd : ∀ u, Derived e.inp x.overlays u → ∀ w ∈ u, w.1 ∈ e.inp :: past := by
      rintro u ⟨o, hm, rfl | ⟨p, rfl⟩⟩ w hw'
      · exact hw o (ho o hm) w hw'
      · rcases List.mem_append.1 hw' with h | h
        · exact hw o (ho o hm) w h
        · rw [List.mem_singleton] at h
          simp [h]
    obtain ⟨l1, l2, l3, l4⟩ := loop_used l c e past (hp e (by simp)) x.overlays ho hn
    apply ih (past := e.inp :: past)
    · simp only [Ctl.step]
      split_ifs
      · exact fun o hm => hw o (ho o hm)
      · intro o hm
        refine hd o.used (l3 o.used (List.mem_map.2 ⟨o, ?_, rfl⟩))
        simpa using hm
    · simp only [Ctl.step]
      split_ifs
      · exact fun o hm => hw o (hf o hm)
      · intro o hm
        rcases List.mem_append.1 hm with hm | hm
        · exact hw o (hf o hm)
        · exact hd o.used (l4 o.used (List.mem_map.2 ⟨o, hm, rfl⟩)).1
    · simp only [Ctl.step]
      split_ifs
      · exact hn
      · refine (List.Perm.nodup_iff ?_).2 l1
        exact List.Perm.map _ (List.Perm.append_right _ (List.reverse_perm _))
    · simp only [Ctl.step]
      split_ifs
      · exact hfn
      · rw [List.map_append, List.nodup_append]
        refine ⟨hfn, l2, ?_⟩
        rintro a ha b hb rfl
        obtain ⟨o, hm, rfl⟩ := List.mem_map.1 ha
        obtain ⟨_, w, hw1, hw2⟩ := l4 o.used hb
        exact hp e (by simp) (hw2 ▸ hf o hm w hw1)
    · exact hi.2
    · intro e' he'
      rw [List.mem_cons, not_or]
      exact ⟨fun h => hi.1 (List.mem_map.2 ⟨e', he', h⟩), hp e' (by simp [he'])⟩

/-- C73. -/
theorem C73_fires : C73 := by
  intro S l c pats s es x
  have key : ∀ (es : List Event) (y : Ctl S), y.fired = y.full.filter (holds l) →
      (run l c y es).fired = (run l c y es).full.filter (holds l) := by
    intro es
    induction es with
    | nil => exact fun y h => h
    | cons e es ih => exact fun y h => ih _ (step_fired l c y e h)
  have key2 : c.once = true → ∀ (es : List Event) (y : Ctl S),
      (y.fired.length ≤ 1 ∧ (y.alive = false ↔ y.fired ≠ [])) →
      ((run l c y es).fired.length ≤ 1 ∧ ((run l c y es).alive = false ↔ (run l c y es).fired ≠ [])) := by
    intro hc es
    induction es with
    | nil => exact fun y h => h
    | cons e es ih => exact fun y h => ih _ (step_once l c hc y e h)
  refine ⟨key es _ rfl, ?_, ?_, ?_⟩
  · intro hc
    have h := key2 hc es (Ctl.init pats s) ⟨by simp [Ctl.init], by simp [Ctl.init]⟩
    refine ⟨h.1, h.2, fun hne more => ?_⟩
    have : run l c (Ctl.init pats s) (es ++ more) = run l c x more := by
      simp only [run, List.foldl_append, x]
    rw [this]
    exact run_dead l c x more (h.2.2 hne)
  · exact fun hc => run_alive l c hc es _ rfl
  · intro hi
    refine run_nodup l c es _ [] ?_ ?_ ?_ ?_ hi (by simp)
    · intro o ho
      simp only [Ctl.init, List.mem_singleton] at ho
      subst ho
      intro u hu
      simp [fresh] at hu
    · simp [Ctl.init]
    · simp [Ctl.init]
    · simp [Ctl.init]

/-- Two patterns, the guards reject combinations that start with input 12. -/
def guarded : Lang (List Nat) :=
  ⟨fun s _ i p => if i / 10 = p then .success (s ++ [i]) else .impossible,
   fun s => decide (s.head? ≠ some 12), fun _ => true⟩

/-- Inputs 11 and 12 fit the first pattern, 21 and 22 the second: four combinations are complete, the
two that start with 12 do not fire; run once, only the first fires. -/
theorem C73_nonvacuous :
    (run guarded ⟨0, false, false⟩ (Ctl.init [1, 2] []) [ev 11, ev 12, ev 21, ev 22]).full.map (·.used) =
      [[(12, 1), (21, 2)], [(11, 1), (21, 2)], [(11, 1), (22, 2)], [(12, 1), (22, 2)]] ∧
    (run guarded ⟨0, false, false⟩ (Ctl.init [1, 2] []) [ev 11, ev 12, ev 21, ev 22]).fired.map (·.used) =
      [[(11, 1), (21, 2)], [(11, 1), (22, 2)]] ∧
    (run guarded ⟨0, false, true⟩ (Ctl.init [1, 2] []) [ev 11, ev 12, ev 21, ev 22]).fired.map (·.used) =
      [[(11, 1), (21, 2)]] := by
  decide

end Verif.Pgm
