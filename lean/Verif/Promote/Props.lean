import Verif.Promote.Spec
import Mathlib.Data.List.Induction
import Mathlib.Data.List.Nodup
import Mathlib.Tactic.Tauto
/-!
# C157: in a simulation what is the case is assumed to go on until a prediction tells otherwise
-/
namespace Verif.Promote

theorem evidence_iff {R : Rel} {f g : Fact} : evidence R f g = true ↔ Tells R f g := by
  unfold evidence Tells overlap covers
  by_cases h : R.same f.obj g.obj = true
  · rw [if_pos h]; simp [h]
  · rw [if_neg h]; simp [h]; tauto

theorem examined_iff {e : Step} {s : Nat} : examined e.o e.p = some s ↔ Arrives e s := by
  unfold examined Arrives
  rcases e.p.sims with _ | ⟨a, _ | ⟨b, l⟩⟩
  · simp
  · simp only [List.cons.injEq, and_true]
    by_cases h : (!e.p.promoted && (e.o.sims == [] || e.o.sims == [a])) = true
    · rw [if_pos h]
      simp only [Bool.and_eq_true, Bool.not_eq_true', Bool.or_eq_true, beq_iff_eq] at h
      constructor
      · intro k; cases k; exact ⟨rfl, h.1, h.2⟩
      · rintro ⟨rfl, _⟩; rfl
    · rw [if_neg h]
      constructor
      · intro k; cases k
      · rintro ⟨rfl, k1, k2⟩
        refine absurd ?_ h
        simp only [Bool.and_eq_true, Bool.not_eq_true', Bool.or_eq_true, beq_iff_eq]
        exact ⟨k1, k2⟩
  · simp

theorem promotes_iff {e : Step} {s : Nat} : promotes e.o e.p s = true ↔ Later e s := by
  unfold promotes Later
  cases e.o.fwdBefore with
  | none => simp
  | some b => simp [and_assoc]

/-- The entry kept of a prediction. -/
def Made.prom (d : Made) : Prom := ⟨d.orig, d.f, d.val⟩

structure Promoted (R : Rel) (p : In) (m : Sm) (x : Saved) (d : Made) : Prop where
  icst : x.icst = false
  id : x.id = d.orig
  time : timeless R x.f p.f = false
  beaten : ∀ f ∈ m.beaten, evidence R (moved p x) f = false
  f : d.f = moved p x
  sims : d.sims = p.sims
  vals : d.vals = p.vals ++ [d.val]
  sal : d.sal = p.cfd

theorem promote_some {R : Rel} {thr : Rat} {p : In} {m : Sm} {next : Nat} {x : Saved} {d : Made} (h : promote R thr p m next x = some d) :
    Promoted R p m x d ∧ d.val = next ∧ ∀ e ∈ m.proms, e.orig ≠ d.orig := by
  unfold promote at h
  by_cases h1 : x.icst = true
  · rw [if_pos h1] at h; cases h
  rw [if_neg h1] at h
  by_cases h2 : (m.proms.any fun d => d.orig == x.id) = true
  · rw [if_pos h2] at h; cases h
  rw [if_neg h2] at h
  by_cases h3 : timeless R x.f p.f = true
  · rw [if_pos h3] at h; cases h
  rw [if_neg h3] at h
  by_cases h4 : (m.beaten.any fun f => evidence R (moved p x) f) = true
  · rw [if_pos h4] at h; cases h
  rw [if_neg h4] at h
  by_cases h5 : p.cfd > thr
  · rw [if_pos h5] at h
    cases h
    simp only [List.any_eq_true, not_exists, not_and, beq_iff_eq, Bool.not_eq_true] at h2 h4
    exact ⟨⟨by simpa using h1, rfl, by simpa using h3, h4, rfl, rfl, rfl, rfl⟩, rfl, h2⟩
  · rw [if_neg h5] at h; cases h

theorem promote_none {R : Rel} {thr : Rat} {p : In} {m : Sm} {next : Nat} {x : Saved} (h : promote R thr p m next x = none)
    (h1 : x.icst = false) (h3 : timeless R x.f p.f = false) (h4 : ∀ f ∈ m.beaten, evidence R (moved p x) f = false) (h5 : thr < p.cfd) :
    ∃ d ∈ m.proms, d.orig = x.id := by
  unfold promote at h
  rw [if_neg (by simp [h1])] at h
  by_cases h2 : (m.proms.any fun d => d.orig == x.id) = true
  · simpa using h2
  · rw [if_neg h2, if_neg (by simp [h3]), if_neg (by simpa using h4), if_pos h5] at h
    cases h

/-- What the loop makes. -/
theorem loop_ran {R : Rel} {thr : Rat} {p : In} : ∀ (ss : List Saved) (m : Sm) (next : Nat), ∃ m' ds,
    loop R thr p m next ss = (m', next + ds.length, ds) ∧ m'.beaten = m.beaten ∧ m'.proms = (ds.map Made.prom).reverse ++ m.proms ∧
    ds.map (·.val) = List.range' next ds.length ∧
    (∀ d ∈ ds, ∃ x ∈ ss, Promoted R p m x d) ∧ (∀ d ∈ ds, ∀ e ∈ m.proms, e.orig ≠ d.orig) ∧ (ds.map (·.orig)).Nodup ∧
    ∀ x ∈ ss, x.icst = false → timeless R x.f p.f = false → (∀ f ∈ m.beaten, evidence R (moved p x) f = false) → thr < p.cfd →
      (∃ d ∈ ds, d.orig = x.id) ∨ ∃ d ∈ m.proms, d.orig = x.id
  | [], m, next => ⟨m, [], rfl, rfl, rfl, rfl, by simp, by simp, by simp, by simp⟩
  | x :: ss, m, next => by
    cases hp : promote R thr p m next x with
    | none =>
      obtain ⟨m', ds, h1, h2, h3, h4, h5, h6, h7, h8⟩ := loop_ran (R := R) (thr := thr) (p := p) ss m next
      refine ⟨m', ds, by simp only [loop, hp, h1], h2, h3, h4, fun d hd => ?_, h6, h7, fun y hy a b c e => ?_⟩
      · obtain ⟨y, a, b⟩ := h5 d hd
        exact ⟨y, List.mem_cons_of_mem _ a, b⟩
      · rcases List.mem_cons.mp hy with rfl | hy
        · exact .inr (promote_none hp a b c e)
        · exact h8 y hy a b c e
    | some d =>
      obtain ⟨q1, q2, q3⟩ := promote_some hp
      obtain ⟨m', ds, h1, h2, h3, h4, h5, h6, h7, h8⟩ := loop_ran (R := R) (thr := thr) (p := p) ss { m with proms := ⟨d.orig, d.f, d.val⟩ :: m.proms } (next + 1)
      refine ⟨m', d :: ds, ?_, h2, ?_, ?_, fun c hc => ?_, fun c hc e he => ?_, ?_, fun y hy a b c e => ?_⟩
      · simp only [loop, hp, h1, List.length_cons]
        rw [Nat.add_assoc, Nat.add_comm 1]
      · rw [h3]; simp [Made.prom]
      · rw [List.map_cons, h4, q2, List.length_cons, List.range'_succ]
      · rcases List.mem_cons.mp hc with rfl | hc
        · exact ⟨x, by simp, q1⟩
        · obtain ⟨y, a, b⟩ := h5 c hc
          exact ⟨y, List.mem_cons_of_mem _ a, b.icst, b.id, b.time, b.beaten, b.f, b.sims, b.vals, b.sal⟩
      · rcases List.mem_cons.mp hc with rfl | hc
        · exact q3 e he
        · exact h6 c hc e (List.mem_cons_of_mem _ he)
      · rw [List.map_cons, List.nodup_cons]
        refine ⟨fun hm => ?_, h7⟩
        obtain ⟨c, a, b⟩ := List.mem_map.mp hm
        exact h6 c a ⟨d.orig, d.f, d.val⟩ (by simp) b.symm
      · rcases List.mem_cons.mp hy with rfl | hy
        · exact .inl ⟨d, by simp, q1.id.symm⟩
        · rcases h8 y hy a b c e with ⟨z, u, v⟩ | ⟨z, u, v⟩
          · exact .inl ⟨z, List.mem_cons_of_mem _ u, v⟩
          · rcases List.mem_cons.mp u with rfl | u
            · exact .inl ⟨d, by simp, v⟩
            · exact .inr ⟨z, u, v⟩

/-- What a step does. -/
structure Ran (R : Rel) (thr : Rat) (σ : State) (e : Step) (τ : State) (ds : List Made) (s : Nat) : Prop where
  next : τ.next = σ.next + ds.length
  dead : ∀ v, v ∈ τ.dead ↔ v ∈ σ.dead ∨ ∃ d ∈ (σ.sims s).proms, Tells R e.p.f d.f ∧ d.val = v
  other : ∀ x, x ≠ s → τ.sims x = σ.sims x
  proms : ∀ d, d ∈ (τ.sims s).proms ↔ (d ∈ (σ.sims s).proms ∧ ¬ Tells R e.p.f d.f) ∨ ∃ m ∈ ds, m.prom = d
  beaten : ∀ f ∈ (τ.sims s).beaten, f ∈ (σ.sims s).beaten ∨ f = e.p.f
  vals : ds.map (·.val) = List.range' σ.next ds.length
  made : ∀ d ∈ ds, Later e s ∧ ∃ x ∈ e.o.saved, x.icst = false ∧ x.id = d.orig ∧ timeless R x.f e.p.f = false ∧ d.f = moved e.p x ∧
    d.sims = e.p.sims ∧ d.vals = e.p.vals ++ [d.val] ∧ d.sal = e.p.cfd
  fresh : ∀ d ∈ ds, ∀ c ∈ (σ.sims s).proms, ¬ Tells R e.p.f c.f → c.orig ≠ d.orig
  apart : (ds.map (·.orig)).Nodup
  complete : Later e s → thr < e.p.cfd → ∀ x ∈ e.o.saved, x.icst = false → timeless R x.f e.p.f = false →
    (∀ f ∈ (τ.sims s).beaten, evidence R (moved e.p x) f = false) →
    (∃ d ∈ ds, d.orig = x.id) ∨ ∃ d ∈ (σ.sims s).proms, d.orig = x.id ∧ ¬ Tells R e.p.f d.f

theorem step_ran {R : Rel} {thr : Rat} {σ : State} {e : Step} {s : Nat} (h : Arrives e s) :
    Ran R thr σ e (step R thr σ e).1 (step R thr σ e).2 s := by
  have hx := examined_iff.mpr h
  have hb : ∀ f ∈ (defeat R e.p.f (σ.sims s)).1.beaten, f ∈ (σ.sims s).beaten ∨ f = e.p.f := fun f hf => by
    rcases List.mem_append.mp hf with k | k
    · exact .inl k
    · obtain ⟨_, _, k⟩ := List.mem_map.mp k
      exact .inr k.symm
  have hd : ∀ d, d ∈ (defeat R e.p.f (σ.sims s)).1.proms ↔ d ∈ (σ.sims s).proms ∧ ¬ Tells R e.p.f d.f := fun d => by
    simp only [defeat, List.mem_filter, ← evidence_iff, Bool.not_eq_true', Bool.not_eq_true]
  have hk : ∀ v, v ∈ σ.dead ++ (defeat R e.p.f (σ.sims s)).2 ↔ v ∈ σ.dead ∨ ∃ d ∈ (σ.sims s).proms, Tells R e.p.f d.f ∧ d.val = v := fun v => by
    simp only [defeat, List.mem_append, List.mem_map, List.mem_filter, ← evidence_iff, and_assoc]
  by_cases hp : promotes e.o e.p s = true
  · obtain ⟨m', ds, h1, h2, h3, h4, h5, h6, h7, h8⟩ := loop_ran (R := R) (thr := thr) (p := e.p) e.o.saved (defeat R e.p.f (σ.sims s)).1 σ.next
    have hs : step R thr σ e = (⟨fun x => if x = s then m' else σ.sims x, σ.dead ++ (defeat R e.p.f (σ.sims s)).2, σ.next + ds.length⟩, ds) := by
      simp only [step, hx, hp, if_true, h1]
    rw [hs]
    refine ⟨rfl, hk, fun x hx => if_neg hx, fun d => ?_, fun f hf => ?_, h4, fun d hd => ?_, fun d hm c hc ht => h6 d hm c ((hd c).mpr ⟨hc, ht⟩), h7, fun _ ht x hx h1 h3' h4' => ?_⟩
    · show d ∈ (if s = s then m' else σ.sims s).proms ↔ _
      rw [if_pos rfl, h3, List.mem_append, List.mem_reverse, List.mem_map, hd]
      exact or_comm
    · change f ∈ (if s = s then m' else σ.sims s).beaten at hf
      rw [if_pos rfl, h2] at hf
      exact hb f hf
    · obtain ⟨x, a, b⟩ := h5 d hd
      exact ⟨promotes_iff.mp hp, x, a, b.icst, b.id, b.time, b.f, b.sims, b.vals, b.sal⟩
    · have hin : ∀ f ∈ (defeat R e.p.f (σ.sims s)).1.beaten, evidence R (moved e.p x) f = false := fun f hf => h4' f (by
        show f ∈ (if s = s then m' else σ.sims s).beaten
        rw [if_pos rfl, h2]; exact hf)
      rcases h8 x hx h1 h3' hin ht with k | ⟨d, a, b⟩
      · exact .inl k
      · exact .inr ⟨d, ((hd d).mp a).1, b, ((hd d).mp a).2⟩
  · have hs : step R thr σ e = (⟨fun x => if x = s then (defeat R e.p.f (σ.sims s)).1 else σ.sims x, σ.dead ++ (defeat R e.p.f (σ.sims s)).2, σ.next⟩, []) := by
      simp only [step, hx, hp]; rfl
    rw [hs]
    refine ⟨rfl, hk, fun x hx => if_neg hx, fun d => ?_, fun f hf => ?_, rfl, by simp, by simp, by simp, fun hl => absurd (promotes_iff.mpr hl) hp⟩
    · show d ∈ (if s = s then _ else σ.sims s).proms ↔ _
      rw [if_pos rfl, hd]; simp
    · change f ∈ (if s = s then _ else σ.sims s).beaten at hf
      rw [if_pos rfl] at hf
      exact hb f hf

theorem step_idle {R : Rel} {thr : Rat} {σ : State} {e : Step} (h : ∀ s, ¬ Arrives e s) : step R thr σ e = (σ, []) := by
  cases hx : examined e.o e.p with
  | none => simp only [step, hx]
  | some s => exact absurd (examined_iff.mp hx) (h s)

theorem arrives_unique {e : Step} {s t : Nat} (h : Arrives e s) (k : Arrives e t) : s = t := by
  have := h.1.symm.trans k.1; simpa using this

/-- States in which validities are not used twice. -/
structure Good (σ : State) : Prop where
  below : ∀ s, ∀ d ∈ (σ.sims s).proms, d.val < σ.next
  dead : ∀ v ∈ σ.dead, v < σ.next
  uniq : ∀ s t, ∀ d ∈ (σ.sims s).proms, ∀ c ∈ (σ.sims t).proms, d.val = c.val → s = t ∧ d = c
  live : ∀ s, ∀ d ∈ (σ.sims s).proms, d.val ∉ σ.dead

theorem vals_ge {ds : List Made} {n : Nat} (h : ds.map (·.val) = List.range' n ds.length) : ∀ d ∈ ds, n ≤ d.val ∧ d.val < n + ds.length := fun d hd => by
  have : d.val ∈ List.range' n ds.length := h ▸ List.mem_map_of_mem hd
  rw [List.mem_range'_1] at this; exact this

theorem vals_inj {ds : List Made} {n : Nat} (h : ds.map (·.val) = List.range' n ds.length) {d c : Made} (hd : d ∈ ds) (hc : c ∈ ds) (e : d.val = c.val) : d = c :=
  List.inj_on_of_nodup_map (f := (·.val)) (h ▸ List.nodup_range') hd hc e

theorem good_step {R : Rel} {thr : Rat} {σ : State} {e : Step} (h : Good σ) : Good (step R thr σ e).1 := by
  by_cases ha : ∃ s, Arrives e s
  swap
  · rw [step_idle (not_exists.mp ha)]; exact h
  obtain ⟨s, ha⟩ := ha
  have r := step_ran (R := R) (thr := thr) (σ := σ) ha
  generalize hτ : (step R thr σ e).1 = τ at r
  generalize (step R thr σ e).2 = ds at r
  -- entries are old or new
  have cases' : ∀ x, ∀ d ∈ (τ.sims x).proms, (d ∈ (σ.sims x).proms ∧ (x = s → ¬ Tells R e.p.f d.f)) ∨ (x = s ∧ ∃ m ∈ ds, m.prom = d) := fun x d hd => by
    by_cases hx : x = s
    · subst hx
      rcases (r.proms d).mp hd with k | k
      · exact .inl ⟨k.1, fun _ => k.2⟩
      · exact .inr ⟨rfl, k⟩
    · rw [r.other x hx] at hd
      exact .inl ⟨hd, fun k => absurd k hx⟩
  have big : ∀ m ∈ ds, σ.next ≤ m.val ∧ m.val < τ.next := fun m hm => r.next ▸ vals_ge r.vals m hm
  refine ⟨fun x d hd => ?_, fun v hv => ?_, fun x y d hd c hc k => ?_, fun x d hd hv => ?_⟩
  · rcases cases' x d hd with k | ⟨_, m, hm, rfl⟩
    · exact Nat.lt_of_lt_of_le (h.below x d k.1) (by rw [r.next]; omega)
    · exact (big m hm).2
  · rcases (r.dead v).mp hv with k | ⟨d, k, _, rfl⟩
    · exact Nat.lt_of_lt_of_le (h.dead v k) (by rw [r.next]; omega)
    · exact Nat.lt_of_lt_of_le (h.below s d k) (by rw [r.next]; omega)
  · rcases cases' x d hd with a | ⟨rfl, m, hm, rfl⟩ <;> rcases cases' y c hc with b | ⟨rfl, n, hn, rfl⟩
    · exact h.uniq x y d a.1 c b.1 k
    · have := h.below x d a.1
      have := (big n hn).1
      simp only [Made.prom] at k; omega
    · have := h.below y c b.1
      have := (big m hm).1
      simp only [Made.prom] at k; omega
    · exact ⟨rfl, by rw [vals_inj r.vals hm hn k]⟩
  · rcases (r.dead _).mp hv with k | ⟨c, k, t, ev⟩
    · rcases cases' x d hd with a | ⟨rfl, m, hm, rfl⟩
      · exact h.live x d a.1 k
      · have := h.dead _ k
        have := (big m hm).1
        simp only [Made.prom] at *; omega
    · rcases cases' x d hd with a | ⟨rfl, m, hm, rfl⟩
      · obtain ⟨rfl, rfl⟩ := h.uniq s x c k d a.1 ev
        exact a.2 rfl t
      · have := h.below _ c k
        have := (big m hm).1
        simp only [Made.prom] at *; omega

theorem after_append {R : Rel} {thr : Rat} (es fs : List Step) : after R thr (es ++ fs) = fs.foldl (fun σ e => (step R thr σ e).1) (after R thr es) := by
  simp [after, List.foldl_append]

theorem after_snoc {R : Rel} {thr : Rat} (es : List Step) (e : Step) : after R thr (es ++ [e]) = (step R thr (after R thr es) e).1 := by
  simp [after_append]

theorem good_after {R : Rel} {thr : Rat} (es : List Step) : Good (after R thr es) := by
  induction es using List.reverseRecOn with
  | nil => exact ⟨by simp [after], by simp [after], by simp [after], by simp [after]⟩
  | append_singleton es e ih => rw [after_snoc]; exact good_step ih

theorem dead_mono {R : Rel} {thr : Rat} {σ : State} {e : Step} {v : Nat} (h : v ∈ σ.dead) : v ∈ (step R thr σ e).1.dead := by
  by_cases ha : ∃ s, Arrives e s
  · obtain ⟨s, ha⟩ := ha
    exact ((step_ran (R := R) (thr := thr) (σ := σ) ha).dead v).mpr (.inl h)
  · rw [step_idle (not_exists.mp ha)]; exact h

theorem dead_fold {R : Rel} {thr : Rat} {v : Nat} : ∀ (fs : List Step) {σ : State}, v ∈ σ.dead → v ∈ (fs.foldl (fun σ e => (step R thr σ e).1) σ).dead
  | [], _, h => h
  | _ :: fs, _, h => dead_fold fs (dead_mono h)

/-- One more step: an entry is withdrawn if it is told of, and kept otherwise. -/
theorem entry_step {R : Rel} {thr : Rat} {σ : State} {e : Step} {s : Nat} {d : Prom} (hd : d ∈ (σ.sims s).proms) :
    (Arrives e s ∧ Tells R e.p.f d.f → d.val ∈ (step R thr σ e).1.dead) ∧
    (¬ (Arrives e s ∧ Tells R e.p.f d.f) → d ∈ ((step R thr σ e).1.sims s).proms) := by
  by_cases ha : ∃ t, Arrives e t
  swap
  · rw [step_idle (not_exists.mp ha)]
    exact ⟨fun k => absurd k.1 (not_exists.mp ha s), fun _ => hd⟩
  obtain ⟨t, ha⟩ := ha
  have r := step_ran (R := R) (thr := thr) (σ := σ) ha
  refine ⟨fun k => ?_, fun k => ?_⟩
  · have := arrives_unique k.1 ha; subst this
    exact (r.dead _).mpr (.inr ⟨d, hd, k.2, rfl⟩)
  · by_cases hs : s = t
    · subst hs
      exact (r.proms d).mpr (.inl ⟨hd, fun q => k ⟨ha, q⟩⟩)
    · rw [r.other s hs]; exact hd

theorem entry_fold {R : Rel} {thr : Rat} {s : Nat} {d : Prom} : ∀ (fs : List Step) {σ : State}, Good σ → d ∈ (σ.sims s).proms →
    (d.val ∈ (fs.foldl (fun σ e => (step R thr σ e).1) σ).dead ↔ ∃ f ∈ fs, Arrives f s ∧ Tells R f.p.f d.f) ∧
    (d.val ∈ (fs.foldl (fun σ e => (step R thr σ e).1) σ).dead ∨ d ∈ ((fs.foldl (fun σ e => (step R thr σ e).1) σ).sims s).proms)
  | [], σ, g, h => ⟨⟨fun k => absurd k (g.live s d h), (fun ⟨f, k, _⟩ => by cases k)⟩, .inr h⟩
  | e :: fs, σ, g, h => by
    obtain ⟨h1, h2⟩ := entry_step (thr := thr) (e := e) (R := R) h
    by_cases k : Arrives e s ∧ Tells R e.p.f d.f
    · have := dead_fold (R := R) (thr := thr) fs (h1 k)
      exact ⟨⟨fun _ => ⟨e, by simp, k⟩, fun _ => this⟩, .inl this⟩
    · obtain ⟨a, b⟩ := entry_fold fs (good_step (R := R) (thr := thr) g) (h2 k)
      refine ⟨?_, b⟩
      rw [List.foldl_cons, a]
      constructor
      · rintro ⟨f, x, y⟩; exact ⟨f, List.mem_cons_of_mem _ x, y⟩
      · rintro ⟨f, x, y⟩
        rcases List.mem_cons.mp x with rfl | x
        · exact absurd y k
        · exact ⟨f, x, y⟩

/-- What is made has arrived in a simulation, and is entered there. -/
theorem outs_arrive {R : Rel} {thr : Rat} {es : List Step} {e : Step} {m : Made} (h : m ∈ outs R thr es e) :
    ∃ s, Arrives e s ∧ Ran R thr (after R thr es) e (after R thr (es ++ [e])) (outs R thr es e) s ∧ m.sims = [s] ∧ m.prom ∈ ((after R thr (es ++ [e])).sims s).proms := by
  by_cases ha : ∃ s, Arrives e s
  · obtain ⟨s, ha⟩ := ha
    have r := step_ran (R := R) (thr := thr) (σ := after R thr es) ha
    rw [← after_snoc] at r
    refine ⟨s, ha, r, ?_, (r.proms _).mpr (.inr ⟨m, h, rfl⟩)⟩
    obtain ⟨_, x, _, _, _, _, _, k, _⟩ := r.made m h
    rw [k, ha.1]
  · rw [outs, step_idle (not_exists.mp ha)] at h; cases h

/-- C157, without what is said of earlier predictions, of |facts and of validities. -/
theorem C157_core_partial {R : Rel} (hR : Sym R) (thr : Rat) (es : List Step) (e : Step) : C157Core R thr es e := by
  refine ⟨fun m hm => ?_, fun m hm k => ?_, fun es1 e1 es2 he m1 hm1 m hm ho hs => ?_, ?_, fun m hm => ?_, fun m hm => ?_, fun m hm fs => ?_⟩
  · obtain ⟨s, ha, r, k, _⟩ := outs_arrive hm
    obtain ⟨hl, x, q1, q2, q3, q4, q5, q6, q7⟩ := r.made m hm
    exact ⟨s, ha, hl, k, x, q1, q3, q2, by simp [AtTime, q5, moved]⟩
  · obtain ⟨s, ha, r, _, _⟩ := outs_arrive hm
    obtain ⟨hl, x, q1, q2, q3, q4, q5, q6, q7⟩ := r.made m hm
    rw [q5] at k
    simp only [timeless, Bool.or_eq_false_iff, Bool.and_eq_false_iff] at q4
    rcases k with k | k
    · rw [hR.same] at k
      rw [show (moved e.p x).obj = x.f.obj from rfl, q4.1] at k
      exact absurd k.1 (by decide)
    · rcases q4.2 with q | q
      · have := k.2.2.1
        rw [show (moved e.p x).pos = x.f.pos from rfl, q] at this; cases this
      · have := k.2.2.2.2.2
        rw [hR.counter, show (moved e.p x).obj = x.f.obj from rfl, q] at this; cases this
  · obtain ⟨s1, _, _, k1, p1⟩ := outs_arrive hm1
    obtain ⟨s, ha, r, k, p⟩ := outs_arrive hm
    have : s1 = s := by rw [k1, k] at hs; simpa using hs
    subst this
    have : after R thr es = es2.foldl (fun σ e => (step R thr σ e).1) (after R thr (es1 ++ [e1])) := by
      rw [← after_append, he]; simp
    rcases (entry_fold (R := R) (thr := thr) es2 (good_after (es1 ++ [e1])) p1).2 with q | q
    · rw [← this] at q
      rw [after_snoc]; exact dead_mono q
    · rw [← this] at q
      by_cases t : Tells R e.p.f m1.prom.f
      · exact (r.dead _).mpr (.inr ⟨m1.prom, q, t, rfl⟩)
      · exact absurd ho (r.fresh m hm m1.prom q t)
  · by_cases ha : ∃ s, Arrives e s
    · obtain ⟨s, ha⟩ := ha
      exact (step_ran (R := R) (thr := thr) (σ := after R thr es) ha).apart
    · rw [outs, step_idle (not_exists.mp ha)]; simp
  · obtain ⟨s, ha, r, _, _⟩ := outs_arrive hm
    obtain ⟨hl, x, q1, q2, q3, q4, q5, q6, q7⟩ := r.made m hm
    rw [q7.1]
    exact ⟨by simp, fun v hv => by simp [hv]⟩
  · obtain ⟨s, ha, r, _, _⟩ := outs_arrive hm
    obtain ⟨hl, x, q1, q2, q3, q4, q5, q6, q7⟩ := r.made m hm
    exact q7.2
  · obtain ⟨s, ha, r, k, p⟩ := outs_arrive hm
    rw [show es ++ e :: fs = (es ++ [e]) ++ fs by simp, after_append]
    rw [show m.val = m.prom.val from rfl, (entry_fold (R := R) (thr := thr) fs (good_after (es ++ [e])) p).1]
    constructor
    · rintro ⟨f, a, b⟩; exact ⟨f, a, s, k, b⟩
    · rintro ⟨f, a, t, b, c⟩
      have : s = t := by rw [k] at b; simpa using b
      subst this
      exact ⟨f, a, c⟩

/-- Where entries and defeating facts come from. -/
theorem origin {R : Rel} {thr : Rat} (es : List Step) : ∀ s,
    (∀ d ∈ ((after R thr es).sims s).proms, ∃ es1 e1 es2, es = es1 ++ e1 :: es2 ∧ ∃ m1 ∈ outs R thr es1 e1, m1.sims = [s] ∧ m1.prom = d) ∧
    ∀ f ∈ ((after R thr es).sims s).beaten, ∃ e1 ∈ es, Arrives e1 s ∧ e1.p.f = f := by
  induction es using List.reverseRecOn with
  | nil => exact fun s => ⟨by simp [after], by simp [after]⟩
  | append_singleton es e ih =>
    intro s
    have old : ∀ d ∈ ((after R thr es).sims s).proms, ∃ es1 e1 es2, es ++ [e] = es1 ++ e1 :: es2 ∧ ∃ m1 ∈ outs R thr es1 e1, m1.sims = [s] ∧ m1.prom = d := fun d hd => by
      obtain ⟨es1, e1, es2, h, k⟩ := (ih s).1 d hd
      exact ⟨es1, e1, es2 ++ [e], by rw [h]; simp, k⟩
    have oldb : ∀ f ∈ ((after R thr es).sims s).beaten, ∃ e1 ∈ es ++ [e], Arrives e1 s ∧ e1.p.f = f := fun f hf => by
      obtain ⟨e1, h, k⟩ := (ih s).2 f hf
      exact ⟨e1, by simp [h], k⟩
    by_cases ha : ∃ t, Arrives e t
    swap
    · rw [after_snoc, step_idle (not_exists.mp ha)]; exact ⟨old, oldb⟩
    obtain ⟨t, ha⟩ := ha
    have r := step_ran (R := R) (thr := thr) (σ := after R thr es) ha
    rw [← after_snoc] at r
    by_cases hs : s = t
    · subst hs
      refine ⟨fun d hd => ?_, fun f hf => ?_⟩
      · rcases (r.proms d).mp hd with k | ⟨m, hm, rfl⟩
        · exact old d k.1
        · obtain ⟨_, x, _, _, _, _, _, k, _⟩ := r.made m hm
          exact ⟨es, e, [], rfl, m, hm, by rw [k, ha.1], rfl⟩
      · rcases r.beaten f hf with k | rfl
        · exact oldb f k
        · exact ⟨e, by simp, ha, rfl⟩
    · rw [r.other s hs]; exact ⟨old, oldb⟩

/-- C157, of what is assumed: if no |fact is predicted in the simulation. -/
theorem C157_complete_partial {R : Rel} (hR : Sym R) (thr : Rat) (es : List Step) (e : Step) (s : Nat) (ha : Arrives e s) (hl : Later e s)
    (ht : thr < e.p.cfd) (hpos : ∀ f ∈ es ++ [e], Arrives f s → f.p.f.pos = true) (x : Saved) (hx : x ∈ e.o.saved) (hi : x.icst = false)
    (hq : ∀ f ∈ es ++ [e], Arrives f s → ¬ Speaks R f.p.f x.f) :
    (∃ m ∈ outs R thr es e, m.orig = x.id) ∨
      ∃ es1 e1 es2, es = es1 ++ e1 :: es2 ∧ ∃ m1 ∈ outs R thr es1 e1, m1.orig = x.id ∧ m1.sims = [s] ∧ m1.val ∉ (after R thr (es ++ [e])).dead := by
  have r := step_ran (R := R) (thr := thr) (σ := after R thr es) ha
  rw [← after_snoc] at r
  have quiet : ∀ f ∈ es ++ [e], Arrives f s → R.same x.f.obj f.p.f.obj = false ∧ (x.f.pos = true → R.counter x.f.obj f.p.f.obj = false) := fun f hf hfa => by
    have := hq f hf hfa
    simp only [Speaks, not_or, Bool.not_eq_true] at this
    refine ⟨hR.same _ _ ▸ this.1, fun hp => ?_⟩
    rw [hR.counter]
    by_contra k
    exact this.2 ⟨hpos f hf hfa, hp, by simpa using k⟩
  have h1 : timeless R x.f e.p.f = false := by
    obtain ⟨q1, q2⟩ := quiet e (by simp) ha
    simp only [timeless, q1, Bool.false_or]
    cases hp : x.f.pos with
    | false => rfl
    | true => rw [q2 hp]; rfl
  have h2 : ∀ f ∈ ((after R thr (es ++ [e])).sims s).beaten, evidence R (moved e.p x) f = false := fun f hf => by
    obtain ⟨e1, h1, h2, rfl⟩ := (origin (es ++ [e]) s).2 f hf
    obtain ⟨q1, q2⟩ := quiet e1 h1 h2
    unfold evidence
    rw [show (moved e.p x).obj = x.f.obj from rfl, q1, if_neg (by decide), show (moved e.p x).pos = x.f.pos from rfl]
    cases hp : x.f.pos with
    | false => rfl
    | true => rw [q2 hp]; simp
  rcases r.complete hl ht x hx hi h1 h2 with k | ⟨d, k1, k2, k3⟩
  · exact .inl k
  · obtain ⟨es1, e1, es2, h, m1, h1, h2, rfl⟩ := (origin es s).1 d k1
    refine .inr ⟨es1, e1, es2, h, m1, h1, k2, h2, ?_⟩
    exact (good_after (R := R) (thr := thr) (es ++ [e])).live s _ ((r.proms _).mpr (.inl ⟨k1, k3⟩))

/-- A prediction that withdrew an assumption is remembered. -/
theorem beaten_after {R : Rel} {thr : Rat} {s : Nat} {f : Fact} : ∀ (fs : List Step) {σ : State}, f ∈ (σ.sims s).beaten →
    f ∈ ((fs.foldl (fun σ e => (step R thr σ e).1) σ).sims s).beaten
  | [], _, h => h
  | e :: fs, σ, h => beaten_after fs (by
      show f ∈ ((step R thr σ e).1.sims s).beaten
      by_cases ha : ∃ t, Arrives e t
      · obtain ⟨t, ha⟩ := ha
        have hx := examined_iff.mpr ha
        have : ((step R thr σ e).1.sims s).beaten = if s = t then (defeat R e.p.f (σ.sims t)).1.beaten else (σ.sims s).beaten := by
          by_cases hp : promotes e.o e.p t = true
          · obtain ⟨m', ds, h1, h2, _⟩ := loop_ran (R := R) (thr := thr) (p := e.p) e.o.saved (defeat R e.p.f (σ.sims t)).1 σ.next
            simp only [step, hx, hp, if_true, h1]
            by_cases hs : s = t
            · rw [if_pos hs, if_pos hs, h2]
            · rw [if_neg hs, if_neg hs]
          · simp only [step, hx, hp]
            by_cases hs : s = t
            · simp [hs]
            · simp [hs]
        rw [this]
        by_cases hs : s = t
        · subst hs
          rw [if_pos rfl]
          exact List.mem_append_left _ h
        · rw [if_neg hs]; exact h
      · rw [step_idle (not_exists.mp ha)]; exact h)

/-- C157, of earlier predictions: not against one that withdrew an assumption, if it is about the same thing or for
no longer than the present one. -/
theorem C157_earlier_partial {R : Rel} (hR : Sym R) (thr : Rat) (es1 : List Step) (f : Step) (es2 : List Step) (e : Step) (s : Nat)
    (ha : Arrives f s) (hw : ∃ v, v ∈ (after R thr (es1 ++ [f])).dead ∧ v ∉ (after R thr es1).dead)
    (hd : f.p.f.after ≥ e.p.f.after ∧ f.p.f.before ≤ e.p.f.before) :
    ∀ m ∈ outs R thr (es1 ++ f :: es2) e, m.sims = [s] → ¬ Against R f.p.f m.f := by
  intro m hm hs hag
  obtain ⟨t, h1, r, h2, h3⟩ := outs_arrive hm
  have : t = s := by rw [h2] at hs; simpa using hs
  subst this
  -- the prediction is among the defeating facts
  have hb : f.p.f ∈ ((after R thr (es1 ++ [f])).sims t).beaten := by
    obtain ⟨v, v1, v2⟩ := hw
    have rf := step_ran (R := R) (thr := thr) (σ := after R thr es1) ha
    rw [← after_snoc] at rf
    rcases (rf.dead v).mp v1 with k | ⟨d, d1, d2, _⟩
    · exact absurd k v2
    have hx := examined_iff.mpr ha
    have hin : f.p.f ∈ (defeat R f.p.f ((after R thr es1).sims t)).1.beaten :=
      List.mem_append_right _ (List.mem_map.mpr ⟨d, List.mem_filter.mpr ⟨d1, evidence_iff.mpr d2⟩, rfl⟩)
    rw [after_snoc]
    by_cases hp : promotes f.o f.p t = true
    · obtain ⟨m', ds, q1, q2, _⟩ := loop_ran (R := R) (thr := thr) (p := f.p) f.o.saved (defeat R f.p.f ((after R thr es1).sims t)).1 (after R thr es1).next
      simp only [step, hx, hp, if_true, q1]
      rw [q2]; exact hin
    · simp only [step, hx, hp]
      simpa using hin
  have hb2 : f.p.f ∈ ((after R thr (es1 ++ f :: es2)).sims t).beaten := by
    rw [show es1 ++ f :: es2 = (es1 ++ [f]) ++ es2 by simp, after_append]
    exact beaten_after es2 hb
  -- so it was looked at
  have hx := examined_iff.mpr h1
  have hp : promotes e.o e.p t = true := promotes_iff.mpr (r.made m hm).1
  obtain ⟨m', ds, q1, q2, q3, q4, q5, _⟩ := loop_ran (R := R) (thr := thr) (p := e.p) e.o.saved (defeat R e.p.f ((after R thr (es1 ++ f :: es2)).sims t)).1 (after R thr (es1 ++ f :: es2)).next
  have ho : outs R thr (es1 ++ f :: es2) e = ds := by simp only [outs, step, hx, hp, if_true, q1]
  rw [ho] at hm
  obtain ⟨x, _, px⟩ := q5 m hm
  have hno := px.beaten f.p.f (List.mem_append_left _ hb2)
  rw [← px.f] at hno
  have hno' : ¬ Tells R m.f f.p.f := fun k => by rw [evidence_iff.mpr k] at hno; cases hno
  have ta : m.f.after = e.p.f.after := by rw [px.f]; rfl
  have tb : m.f.before = e.p.f.before := by rw [px.f]; rfl
  refine hno' ?_
  rcases hag with k | k
  · exact .inl ⟨hR.same _ _ ▸ k.1, k.2.2.2, k.2.2.1⟩
  · exact .inr ⟨hR.same _ _ ▸ k.1, k.2.2.1, by rw [ta]; exact hd.1, by rw [tb]; exact hd.2, hR.counter _ _ ▸ k.2.2.2.2.2⟩

/-! ## Cases -/

/-- Objects `10 a + v`: attribute `a` is `v`. -/
def attr : Rel := ⟨fun a b => a == b, fun a b => a != b && a / 10 == b / 10⟩

theorem attr_sym : Sym attr := by
  refine ⟨fun a b => ?_, fun a b => ?_⟩
  · simp only [attr]; exact Bool.beq_comm
  · simp only [attr, bne]; rw [Bool.beq_comm (a := a), Bool.beq_comm (a := a / 10)]

/-- A position seen until 10. -/
def seen : Saved := ⟨50, ⟨11, true, 0, 10, 1⟩, false, []⟩
/-- An overlay that has it; one that has nothing; one that has the position as a prediction that rests on a validity. -/
def has : Ov := ⟨[], [seen], some 10, []⟩
def bare : Ov := ⟨[], [], none, []⟩
def shaky : Ov := ⟨[], [{ seen with vals := [7] }], some 10, []⟩

/-- Predictions in simulation 1. -/
def pred (obj : Nat) (pos : Bool) (a b : Int) : In := ⟨⟨obj, pos, a, b, 1⟩, 1, [1], [], false⟩
/-- Another attribute; another position; the same for longer; another attribute; not yet another position. -/
def other : In := pred 21 true 10 20
def moves : In := pred 12 true 10 20
def leaves : In := pred 12 true 10 30
def third : In := pred 31 true 10 20
def nothere : In := pred 13 false 10 20

/-- The position assumed to go on. -/
def goesOn (v : Nat) : Made := ⟨50, ⟨11, true, 10, 20, 1⟩, [1], [v], v, 1⟩

theorem ran1 : outs attr 0 [] ⟨has, other⟩ = [goesOn 0] := by decide +kernel
theorem ran2 : outs attr 0 [⟨bare, moves⟩] ⟨has, other⟩ = [goesOn 0] := by decide +kernel
theorem ran3 : outs attr 0 [⟨has, other⟩, ⟨bare, leaves⟩] ⟨has, third⟩ = [goesOn 1] := by decide +kernel
theorem ran4 : outs attr 0 [] ⟨has, nothere⟩ = [] := by decide +kernel
theorem ran5 : outs attr 0 [] ⟨shaky, other⟩ = [goesOn 0] := by decide +kernel
theorem ran6 : outs attr 0 [⟨has, other⟩, ⟨bare, moves⟩] ⟨has, third⟩ = [] := by decide +kernel
theorem ran7 : outs attr 0 [⟨has, other⟩] ⟨has, third⟩ = [] := by decide +kernel

/-- Where the full property fails: a position is assumed although another one has been predicted for the time, before
the overlay had it, or for longer; what is predicted not to be elsewhere is not assumed to stay; an assumption does
not rest on what it was assumed from. -/
theorem C157_assume_violated : ¬ C157_full ∧
    (goesOn 0 ∈ outs attr 0 [⟨bare, moves⟩] ⟨has, other⟩ ∧ Arrives ⟨bare, moves⟩ 1 ∧ Against attr moves.f (goesOn 0).f) ∧
    (goesOn 1 ∈ outs attr 0 [⟨has, other⟩, ⟨bare, leaves⟩] ⟨has, third⟩ ∧ Arrives ⟨bare, leaves⟩ 1 ∧ Against attr leaves.f (goesOn 1).f ∧
      (goesOn 0).val ∈ (after attr 0 [⟨has, other⟩, ⟨bare, leaves⟩]).dead) ∧
    (outs attr 0 [] ⟨has, nothere⟩ = [] ∧ Arrives ⟨has, nothere⟩ 1 ∧ Later ⟨has, nothere⟩ 1 ∧ ¬ Speaks attr nothere.f seen.f) ∧
    goesOn 0 ∈ outs attr 0 [] ⟨shaky, other⟩ ∧ 7 ∉ (goesOn 0).vals := by
  have h1 : Against attr moves.f (goesOn 0).f := .inr (by decide)
  have h2 : goesOn 0 ∈ outs attr 0 [⟨bare, moves⟩] ⟨has, other⟩ := by rw [ran2]; simp
  have h3 : Arrives ⟨bare, moves⟩ 1 := ⟨rfl, rfl, .inl rfl⟩
  refine ⟨fun h => ?_, ⟨h2, h3, h1⟩, ⟨by rw [ran3]; simp, ⟨rfl, rfl, .inl rfl⟩, .inr (by decide), by decide +kernel⟩, ⟨ran4, ⟨rfl, rfl, .inl rfl⟩, ⟨by decide, ⟨10, rfl, by decide⟩, by decide⟩, ?_⟩,
    by rw [ran5]; simp, by decide⟩
  · exact (h attr 0 [⟨bare, moves⟩] ⟨has, other⟩ attr_sym).earlier _ h2 1 rfl _ (by simp) h3 h1
  · rintro (k | k)
    · exact absurd k (by decide)
    · exact absurd k.1 (by decide)

/-- A position is assumed to go on; it is withdrawn when another one is predicted, and not assumed again; it is not
assumed twice. -/
theorem C157_nonvacuous : outs attr 0 [] ⟨has, other⟩ = [goesOn 0] ∧
    (goesOn 0).val ∈ (after attr 0 ([] ++ ⟨has, other⟩ :: [⟨bare, moves⟩])).dead ∧
    outs attr 0 [⟨has, other⟩, ⟨bare, moves⟩] ⟨has, third⟩ = [] ∧
    outs attr 0 [⟨has, other⟩] ⟨has, third⟩ = [] ∧
    (∃ v, v ∈ (after attr 0 ([⟨has, other⟩] ++ [⟨bare, moves⟩])).dead ∧ v ∉ (after attr 0 [⟨has, other⟩]).dead) ∧
    Arrives ⟨has, other⟩ 1 ∧ Later ⟨has, other⟩ 1 ∧ ¬ Speaks attr other.f seen.f := by
  refine ⟨ran1, ?_, ran6, ran7, ⟨0, by decide +kernel, by decide +kernel⟩, ⟨rfl, rfl, .inl rfl⟩, ⟨by decide, ⟨10, rfl, by decide⟩, by decide⟩, ?_⟩
  · refine ((C157_core_partial attr_sym 0 [] ⟨has, other⟩).withdrawn (goesOn 0) (by rw [ran1]; simp) _).mpr
      ⟨⟨bare, moves⟩, by simp, 1, rfl, ⟨rfl, rfl, .inl rfl⟩, .inr (by decide)⟩
  · rintro (k | k)
    · exact absurd k (by decide)
    · exact absurd k.2.2 (by decide)

end Verif.Promote
