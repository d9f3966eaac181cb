import Verif.Invalidation.Model
/-!
# Property C33
-/
namespace Verif.Invalidation

/-- The objects an object depends on: a fact on its content, a prediction on its simulations,
grounds, defeasible validities and target, a goal on the super-goal of its simulation, a simulation
on its super-goal, a composite state instance on its components. -/
def deps : Node → List Nat
  | .plain => []
  | .fact c => [c]
  | .pred a b c t => a ++ b ++ c ++ [t]
  | .goal none => []
  | .goal (some (_, f)) => [f]
  | .sim f => [f]
  | .icst l => l

/-- `n` is, or depends directly or indirectly on, an object satisfying `P`. -/
inductive Reaches (g : Nat → Node) (P : Nat → Prop) : Nat → Prop
  | self {n : Nat} : P n → Reaches g P n
  | dep {n m : Nat} : m ∈ deps (g n) → Reaches g P m → Reaches g P n

/-- No cycles: `rank` decreases along dependencies.  A goal refers to a simulation whose super-goal
is the one given. -/
structure Acyclic (g : Nat → Node) (rank : Nat → Nat) : Prop where
  dec : ∀ n, ∀ m ∈ deps (g n), rank m < rank n
  sims : ∀ n m f, g n = .goal (some (m, f)) → g m = .sim f

/-- What asking must not do to the flags: clear one, or set one of an object that neither is nor
depends on an invalid one. -/
def Sound (g : Nat → Node) (s s' : Flags) : Prop :=
  (∀ m, s m = true → s' m = true) ∧ (∀ m, s' m = true → Reaches g (fun x => s x = true) m)

theorem Reaches.mono {g : Nat → Node} {P Q : Nat → Prop} {n : Nat} (h : Reaches g P n)
    (hpq : ∀ m, P m → Reaches g Q m) : Reaches g Q n := by
  induction h with
  | self h => exact hpq _ h
  | dep hm _ ih => exact .dep hm ih

theorem Sound.rfl' {g : Nat → Node} (s : Flags) : Sound g s s := ⟨fun _ h => h, fun _ h => .self h⟩

theorem Sound.trans {g : Nat → Node} {a b c : Flags} (h : Sound g a b) (h' : Sound g b c) : Sound g a c :=
  ⟨fun m q => h'.1 m (h.1 m q), fun m q => (h'.2 m q).mono h.2⟩

theorem Sound.iff {g : Nat → Node} {a b : Flags} (h : Sound g a b) (n : Nat) :
    Reaches g (fun x => b x = true) n ↔ Reaches g (fun x => a x = true) n :=
  ⟨fun q => q.mono h.2, fun q => q.mono fun m hm => .self (h.1 m hm)⟩

theorem Sound.mark {g : Nat → Node} {a b : Flags} {n : Nat} (h : Sound g a b)
    (hn : Reaches g (fun x => a x = true) n) : Sound g a (mark b n) := by
  refine ⟨fun m q => ?_, fun m q => ?_⟩
  · simp only [Invalidation.mark]; split
    · rfl
    · exact h.1 m q
  · simp only [Invalidation.mark] at q
    split at q
    · rename_i e; subst e; exact hn
    · exact h.2 m q

/-- `q` answers correctly, below a rank. -/
def Good (g : Nat → Node) (rank : Nat → Nat) (k : Nat) (q : Flags → Nat → Bool × Flags) : Prop :=
  ∀ s n, rank n < k → ((q s n).1 = true ↔ Reaches g (fun x => s x = true) n) ∧ Sound g s (q s n).2

theorem anyOf_good {g : Nat → Node} {rank : Nat → Nat} {k : Nat} {q : Flags → Nat → Bool × Flags}
    (hq : Good g rank k q) (l : List Nat) (s : Flags) (hl : ∀ m ∈ l, rank m < k) :
    ((anyOf q s l).1 = true ↔ ∃ m ∈ l, Reaches g (fun x => s x = true) m) ∧ Sound g s (anyOf q s l).2 := by
  induction l generalizing s with
  | nil => simp [anyOf, Sound.rfl']
  | cons m l ih =>
    obtain ⟨h1, h2⟩ := hq s m (hl m (by simp))
    simp only [anyOf]
    cases e : q s m with
    | mk b s' =>
      rw [e] at h1 h2
      cases b with
      | true => exact ⟨⟨fun _ => ⟨m, by simp, h1.mp rfl⟩, fun _ => rfl⟩, h2⟩
      | false =>
        obtain ⟨i1, i2⟩ := ih s' (fun x hx => hl x (List.mem_cons_of_mem _ hx))
        refine ⟨?_, h2.trans i2⟩
        rw [i1]
        constructor
        · rintro ⟨x, hx, hr⟩; exact ⟨x, List.mem_cons_of_mem _ hx, (h2.iff x).mp hr⟩
        · rintro ⟨x, hx, hr⟩
          rcases List.mem_cons.mp hx with rfl | hx
          · exact absurd (h1.mpr hr) (by simp)
          · exact ⟨x, hx, (h2.iff x).mpr hr⟩

theorem reaches_iff {g : Nat → Node} {s : Flags} {n : Nat} (hs : s n = false) :
    Reaches g (fun x => s x = true) n ↔ ∃ m ∈ deps (g n), Reaches g (fun x => s x = true) m := by
  constructor
  · intro h
    cases h with
    | self h => rw [hs] at h; cases h
    | dep hm h => exact ⟨_, hm, h⟩
  · rintro ⟨m, hm, h⟩; exact .dep hm h

theorem simInvalidate_sound {g : Nat → Node} {rank : Nat → Nat} {k : Nat} {q : Flags → Nat → Bool × Flags}
    (hq : Good g rank k q) {s : Flags} {m f : Nat} (hf : rank f < k)
    (hr : Reaches g (fun x => s x = true) f) : Sound g s (simInvalidate q s m f).2 := by
  obtain ⟨h1, h2⟩ := hq s f hf
  unfold simInvalidate
  split
  · exact Sound.rfl' s
  · cases e : q s f with
    | mk b s' =>
      rw [e] at h1 h2
      cases b with
      | true => exact h2
      | false => exact absurd (h1.mpr hr) (by simp)

theorem query_good {g : Nat → Node} {rank : Nat → Nat} (hg : Acyclic g rank) (k : Nat) :
    Good g rank k (query g k) := by
  induction k with
  | zero => intro s n hn; omega
  | succ k ih =>
    intro s n hn
    have hdep : ∀ m ∈ deps (g n), rank m < k := fun m hm => by have := hg.dec n m hm; omega
    simp only [query]
    by_cases hs : s n = true
    · rw [if_pos hs]
      exact ⟨⟨fun _ => .self hs, fun _ => rfl⟩, Sound.rfl' s⟩
    rw [if_neg hs]
    have hs' : s n = false := by simpa using hs
    rw [reaches_iff hs']
    cases hgn : g n with
    | plain => simp [deps, Sound.rfl']
    | fact c =>
      rw [hgn] at hdep
      obtain ⟨h1, h2⟩ := ih s c (hdep c (by simp [deps]))
      simp only
      cases e : query g k s c with
      | mk b s' =>
        rw [e] at h1 h2
        cases b with
        | true =>
          refine ⟨by simpa [deps] using h1, h2.mark ?_⟩
          exact .dep (m := c) (by rw [hgn]; simp [deps]) (h1.mp rfl)
        | false => exact ⟨by simpa [deps] using h1, h2⟩
    | pred a b c t =>
      rw [hgn] at hdep
      obtain ⟨h1, h2⟩ := anyOf_good ih (a ++ b ++ c ++ [t]) s hdep
      simp only
      cases e : anyOf (query g k) s (a ++ b ++ c ++ [t]) with
      | mk r s' =>
        rw [e] at h1 h2
        cases r with
        | true =>
          refine ⟨h1, h2.mark ?_⟩
          obtain ⟨m, hm, hr⟩ := h1.mp rfl
          exact .dep (m := m) (by rw [hgn]; exact hm) hr
        | false => exact ⟨h1, h2⟩
    | goal sim =>
      cases sim with
      | none => simp [deps, Sound.rfl']
      | some p =>
        obtain ⟨m, f⟩ := p
        rw [hgn] at hdep
        have hf := hdep f (by simp [deps])
        obtain ⟨h1, h2⟩ := ih s f hf
        simp only
        cases e : query g k s f with
        | mk b s' =>
          rw [e] at h1 h2
          cases b with
          | true =>
            have hr := h1.mp rfl
            refine ⟨by simpa [deps] using h1, ?_⟩
            have := simInvalidate_sound (m := m) ih hf ((h2.iff f).mpr hr)
            exact (h2.trans this).mark (.dep (m := f) (by rw [hgn]; simp [deps]) hr)
          | false => exact ⟨by simpa [deps] using h1, h2⟩
    | sim f =>
      rw [hgn] at hdep
      have hf := hdep f (by simp [deps])
      obtain ⟨h1, h2⟩ := ih s f hf
      simp only
      cases e : query g k s f with
      | mk b s' =>
        rw [e] at h1 h2
        cases b with
        | true =>
          have hr := h1.mp rfl
          exact ⟨by simpa [deps] using h1, h2.trans (simInvalidate_sound ih hf ((h2.iff f).mpr hr))⟩
        | false => exact ⟨by simpa [deps] using h1, h2⟩
    | icst l =>
      rw [hgn] at hdep
      obtain ⟨h1, h2⟩ := anyOf_good ih l s hdep
      simp only
      cases e : anyOf (query g k) s l with
      | mk r s' =>
        rw [e] at h1 h2
        cases r with
        | true =>
          refine ⟨h1, h2.mark ?_⟩
          obtain ⟨m, hm, hr⟩ := h1.mp rfl
          exact .dep (m := m) (by rw [hgn]; exact hm) hr
        | false => exact ⟨h1, h2⟩

/-! ## Histories -/

inductive Op
  | invalidate (n : Nat)
  | query (n : Nat)
deriving DecidableEq, Repr

def step (g : Nat → Node) (k : Nat) (s : Flags) : Op → Bool × Flags
  | .invalidate n => invalidate g k s n
  | .query n => query g k s n

/-- The objects invalidated by a history: those `invalidate` was called on, and the simulation of a
goal with the goal. -/
def Invalidated (g : Nat → Node) (h : List Op) (n : Nat) : Prop :=
  .invalidate n ∈ h ∨ ∃ m f, .invalidate m ∈ h ∧ g m = .goal (some (n, f))

def after (g : Nat → Node) (k : Nat) (s : Flags) : List Op → Flags
  | [] => s
  | op :: l => after g k (step g k s op).2 l

/-- Marking `n`, and perhaps other things that follow from the rest. -/
theorem invalidate_iff {g : Nat → Node} {rank : Nat → Nat} (hg : Acyclic g rank) {k : Nat}
    (hk : ∀ n, rank n < k) (s : Flags) (n x : Nat) :
    Reaches g (fun y => (invalidate g k s n).2 y = true) x ↔
      Reaches g (fun y => s y = true ∨ y = n ∨ ∃ f, g n = .goal (some (y, f))) x := by
  have hq := query_good hg k
  -- what invalidating a simulation does
  have simCase : ∀ m f, g m = .sim f → ∀ y,
      (Reaches g (fun y => (simInvalidate (query g k) s m f).2 y = true) y ↔
        Reaches g (fun y => s y = true ∨ y = m) y) := by
    intro m f hm y
    obtain ⟨h1, h2⟩ := hq s f (hk f)
    unfold simInvalidate
    by_cases hs : s m = true
    · rw [if_pos hs]
      constructor
      · exact fun q => q.mono fun z hz => .self (Or.inl hz)
      · exact fun q => q.mono fun z hz => .self (by rcases hz with hz | rfl <;> assumption)
    · rw [if_neg hs]
      cases e : query g k s f with
      | mk b s' =>
        rw [e] at h1 h2
        cases b with
        | true =>
          simp only
          rw [h2.iff y]
          constructor
          · exact fun q => q.mono fun z hz => .self (Or.inl hz)
          · refine fun q => q.mono fun z hz => ?_
            rcases hz with hz | rfl
            · exact .self hz
            · exact .dep (m := f) (by rw [hm]; simp [deps]) (h1.mp rfl)
        | false =>
          simp only
          constructor
          · refine fun q => q.mono fun z hz => ?_
            simp only [mark] at hz
            split at hz
            · exact .self (Or.inr ‹_›)
            · exact (h2.2 z hz).mono fun w hw => .self (Or.inl hw)
          · refine fun q => q.mono fun z hz => ?_
            refine .self ?_
            simp only [mark]
            split
            · rfl
            · rcases hz with hz | hz
              · exact h2.1 z hz
              · exact absurd hz ‹_›
  have plainCase : (∀ y f, g n ≠ .goal (some (y, f))) →
      (Reaches g (fun y => mark s n y = true) x ↔
        Reaches g (fun y => s y = true ∨ y = n ∨ ∃ f, g n = .goal (some (y, f))) x) := by
    intro hne
    constructor
    · refine fun q => q.mono fun z hz => .self ?_
      simp only [mark] at hz
      split at hz
      · exact Or.inr (Or.inl ‹_›)
      · exact Or.inl hz
    · refine fun q => q.mono fun z hz => .self ?_
      simp only [mark]
      split
      · rfl
      · rcases hz with hz | hz | ⟨f, hf⟩
        · exact hz
        · exact absurd hz ‹_›
        · exact absurd hf (hne _ _)
  unfold invalidate
  cases hgn : g n with
  | plain => rw [hgn] at plainCase; exact plainCase (by simp)
  | fact c => rw [hgn] at plainCase; exact plainCase (by simp)
  | pred a b c t => rw [hgn] at plainCase; exact plainCase (by simp)
  | icst l => rw [hgn] at plainCase; exact plainCase (by simp)
  | sim f =>
    simp only
    rw [simCase n f hgn x]
    constructor
    · refine fun q => q.mono fun z hz => .self ?_
      rcases hz with hz | hz
      · exact Or.inl hz
      · exact Or.inr (Or.inl hz)
    · refine fun q => q.mono fun z hz => .self ?_
      rcases hz with hz | hz | ⟨_, hz⟩
      · exact Or.inl hz
      · exact Or.inr hz
      · cases hz
  | goal sim =>
    cases sim with
    | none => rw [hgn] at plainCase; exact plainCase (by simp)
    | some p =>
      obtain ⟨m, f⟩ := p
      have hm := hg.sims n m f hgn
      simp only [goalInvalidate]
      constructor
      · refine fun q => q.mono fun z hz => ?_
        simp only [mark] at hz
        split at hz
        · exact .self (Or.inr (Or.inl ‹_›))
        · refine ((simCase m f hm z).mp (.self hz)).mono fun w hw => .self ?_
          rcases hw with hw | rfl
          · exact Or.inl hw
          · exact Or.inr (Or.inr ⟨f, rfl⟩)
      · have lift : ∀ z, Reaches g (fun y => (simInvalidate (query g k) s m f).2 y = true) z →
            Reaches g (fun y => mark (simInvalidate (query g k) s m f).2 n y = true) z := by
          refine fun z q => q.mono fun w hw => .self ?_
          simp only [mark]; split
          · rfl
          · exact hw
        refine fun q => q.mono fun z hz => ?_
        rcases hz with hz | rfl | ⟨f', hz⟩
        · exact lift z ((simCase m f hm z).mpr (.self (Or.inl hz)))
        · exact .self (by simp [mark])
        · simp only [Node.goal.injEq, Option.some.injEq, Prod.mk.injEq] at hz
          obtain ⟨rfl, _⟩ := hz
          exact lift _ ((simCase m f hm m).mpr (.self (Or.inr rfl)))

theorem after_iff {g : Nat → Node} {rank : Nat → Nat} (hg : Acyclic g rank) {k : Nat}
    (hk : ∀ n, rank n < k) (h : List Op) (s : Flags) (x : Nat) :
    Reaches g (fun y => after g k s h y = true) x ↔
      Reaches g (fun y => s y = true ∨ Invalidated g h y) x := by
  induction h generalizing s x with
  | nil => simp [after, Invalidated]
  | cons op l ih =>
    simp only [after]
    rw [ih]
    have widen : ∀ y, Invalidated g l y → Invalidated g (op :: l) y := by
      rintro y (hy | ⟨m, f, hm, hf⟩)
      · exact Or.inl (List.mem_cons_of_mem _ hy)
      · exact Or.inr ⟨m, f, List.mem_cons_of_mem _ hm, hf⟩
    cases op with
    | query n =>
      have hs := (query_good hg k s n (hk n)).2
      constructor
      · refine fun q => q.mono fun z hz => ?_
        rcases hz with hz | hz
        · exact (hs.2 z hz).mono fun w hw => .self (Or.inl hw)
        · exact .self (Or.inr (widen z hz))
      · refine fun q => q.mono fun z hz => .self ?_
        rcases hz with hz | hz
        · exact Or.inl (hs.1 z hz)
        · right
          rcases hz with hz | ⟨m, f, hm, hf⟩
          · simp at hz; exact Or.inl hz
          · simp at hm; exact Or.inr ⟨m, f, hm, hf⟩
    | invalidate n =>
      have key := invalidate_iff hg hk s n
      constructor
      · refine fun q => q.mono fun z hz => ?_
        rcases hz with hz | hz
        · refine ((key z).mp (.self hz)).mono fun w hw => .self ?_
          rcases hw with hw | rfl | ⟨f, hf⟩
          · exact Or.inl hw
          · exact Or.inr (Or.inl (by simp))
          · exact Or.inr (Or.inr ⟨n, f, by simp, hf⟩)
        · exact .self (Or.inr (widen z hz))
      · have lift : ∀ z, Reaches g (fun y => (invalidate g k s n).2 y = true) z →
            Reaches g (fun y => (step g k s (.invalidate n)).2 y = true ∨ Invalidated g l y) z :=
          fun z q => q.mono fun w hw => .self (Or.inl hw)
        refine fun q => q.mono fun z hz => ?_
        rcases hz with hz | hz | ⟨m, f, hm, hf⟩
        · exact lift z ((key z).mpr (.self (Or.inl hz)))
        · rcases List.mem_cons.mp hz with hz | hz
          · cases hz; exact lift _ ((key _).mpr (.self (Or.inr (Or.inl rfl))))
          · exact .self (Or.inr (Or.inl hz))
        · rcases List.mem_cons.mp hm with hm | hm
          · cases hm; exact lift z ((key z).mpr (.self (Or.inr (Or.inr ⟨f, hf⟩))))
          · exact .self (Or.inr (Or.inr ⟨m, f, hm, hf⟩))

/-- All objects valid. -/
def fresh : Flags := fun _ => false

/-- C33: after any history of invalidations and queries, an object is reported invalid exactly when
it, or something it depends on, was invalidated. -/
theorem C33_exact (g : Nat → Node) (rank : Nat → Nat) (hg : Acyclic g rank) (k : Nat)
    (hk : ∀ n, rank n < k) (h : List Op) (n : Nat) :
    (query g k (after g k fresh h) n).1 = true ↔ Reaches g (Invalidated g h) n := by
  rw [(query_good hg k _ n (hk n)).1, after_iff hg hk]
  constructor
  · exact fun q => q.mono fun z hz => .self (by simpa [fresh] using hz)
  · exact fun q => q.mono fun z hz => .self (Or.inr hz)

/-- C33: what is reported invalid stays so, whatever happens afterwards. -/
theorem C33_permanent (g : Nat → Node) (rank : Nat → Nat) (hg : Acyclic g rank) (k : Nat)
    (hk : ∀ n, rank n < k) (h h' : List Op) (n : Nat)
    (hn : (query g k (after g k fresh h) n).1 = true) :
    (query g k (after g k fresh (h ++ h')) n).1 = true := by
  rw [C33_exact g rank hg k hk] at hn ⊢
  refine hn.mono fun m hm => .self ?_
  rcases hm with hm | ⟨x, f, hx, hf⟩
  · exact Or.inl (List.mem_append.mpr (Or.inl hm))
  · exact Or.inr ⟨x, f, List.mem_append.mpr (Or.inl hx), hf⟩

/-- C33: queries change no answer; nor does invalidating what is reported invalid already. -/
theorem C33_idempotent (g : Nat → Node) (rank : Nat → Nat) (hg : Acyclic g rank) (k : Nat)
    (hk : ∀ n, rank n < k) (h : List Op) (op : Op)
    (hop : ∀ n, op = .invalidate n → (query g k (after g k fresh h) n).1 = true) (n : Nat) :
    (query g k (after g k fresh (h ++ [op])) n).1 = (query g k (after g k fresh h) n).1 := by
  simp only [C33_exact g rank hg k hk] at hop
  rw [Bool.eq_iff_iff, C33_exact g rank hg k hk, C33_exact g rank hg k hk]
  constructor
  · refine fun q => q.mono fun y hz => ?_
    rcases hz with hy | ⟨m, f, hm, hf⟩
    · rcases List.mem_append.mp hy with hy | hy
      · exact .self (Or.inl hy)
      · simp only [List.mem_cons, List.not_mem_nil, or_false] at hy
        exact hop y hy.symm
    · rcases List.mem_append.mp hm with hm | hm
      · exact .self (Or.inr ⟨m, f, hm, hf⟩)
      · simp only [List.mem_cons, List.not_mem_nil, or_false] at hm
        cases hop m hm.symm with
        | self hi =>
          rcases hi with hi | ⟨x, f', _, hx⟩
          · exact .self (Or.inr ⟨m, f, hi, hf⟩)
          · have := hg.sims x m f' hx
            rw [hf] at this; cases this
        | dep hd hr =>
          rw [hf] at hd
          simp only [deps, List.mem_cons, List.not_mem_nil, or_false] at hd
          subst hd
          exact .dep (by rw [hg.sims m y _ hf]; simp [deps]) hr
  · refine fun q => q.mono fun y hz => .self ?_
    rcases hz with hy | ⟨m, f, hm, hf⟩
    · exact Or.inl (List.mem_append.mpr (Or.inl hy))
    · exact Or.inr ⟨m, f, List.mem_append.mpr (Or.inl hm), hf⟩

/-- An object `invalidate` was called on: flagged, or a simulation whose super-goal is invalid. -/
def Done (g : Nat → Node) (s : Flags) (n : Nat) : Prop :=
  s n = true ∨ ∃ f, g n = .sim f ∧ Reaches g (fun x => s x = true) f

theorem simInvalidate_keeps {g : Nat → Node} {rank : Nat → Nat} {k : Nat} (hg : Acyclic g rank)
    (hk : ∀ n, rank n < k) (s : Flags) (m f x : Nat) (hx : s x = true) :
    (simInvalidate (query g k) s m f).2 x = true := by
  have h2 := (query_good hg k s f (hk f)).2
  unfold simInvalidate
  split
  · exact hx
  · cases e : query g k s f with
    | mk b s' =>
      rw [e] at h2
      cases b with
      | true => exact h2.1 x hx
      | false => simp only [mark]; split; rfl; exact h2.1 x hx

theorem step_keeps {g : Nat → Node} {rank : Nat → Nat} {k : Nat} (hg : Acyclic g rank)
    (hk : ∀ n, rank n < k) (s : Flags) (op : Op) (x : Nat) (hx : s x = true) :
    (step g k s op).2 x = true := by
  cases op with
  | query n => exact (query_good hg k s n (hk n)).2.1 x hx
  | invalidate n =>
    simp only [step, invalidate]
    cases g n with
    | goal sim =>
      cases sim with
      | none => simp only [goalInvalidate, mark]; split; rfl; exact hx
      | some p =>
        simp only [goalInvalidate, mark]; split
        · rfl
        · exact simInvalidate_keeps hg hk s _ _ x hx
    | sim f => exact simInvalidate_keeps hg hk s _ _ x hx
    | _ => simp only [mark]; split; rfl; exact hx

theorem done_step {g : Nat → Node} {rank : Nat → Nat} {k : Nat} (hg : Acyclic g rank)
    (hk : ∀ n, rank n < k) (s : Flags) (op : Op) (n : Nat) (hn : Done g s n) :
    Done g (step g k s op).2 n := by
  rcases hn with h | ⟨f, hf, hr⟩
  · exact Or.inl (step_keeps hg hk s op n h)
  · exact Or.inr ⟨f, hf, hr.mono fun m hm => .self (step_keeps hg hk s op m hm)⟩

theorem done_invalidate {g : Nat → Node} {rank : Nat → Nat} {k : Nat} (hg : Acyclic g rank)
    (hk : ∀ n, rank n < k) (s : Flags) (n : Nat) : Done g (step g k s (.invalidate n)).2 n := by
  simp only [step, invalidate]
  cases hgn : g n with
  | goal sim => cases sim <;> exact Or.inl (by simp [goalInvalidate, mark])
  | sim f =>
    obtain ⟨h1, h2⟩ := query_good hg k s f (hk f)
    simp only [simInvalidate]
    by_cases hs : s n = true
    · rw [if_pos hs]; exact Or.inl hs
    · rw [if_neg hs]
      cases e : query g k s f with
      | mk b s' =>
        rw [e] at h1 h2
        cases b with
        | true => exact Or.inr ⟨f, hgn, (h2.iff f).mpr (h1.mp rfl)⟩
        | false => exact Or.inl (by simp [mark])
  | _ => exact Or.inl (by simp [mark])

theorem done_after {g : Nat → Node} {rank : Nat → Nat} {k : Nat} (hg : Acyclic g rank)
    (hk : ∀ n, rank n < k) (h : List Op) (s : Flags) (n : Nat)
    (hn : Done g s n ∨ Op.invalidate n ∈ h) : Done g (after g k s h) n := by
  induction h generalizing s with
  | nil => rcases hn with hn | hn; exact hn; cases hn
  | cons op l ih =>
    refine ih _ ?_
    rcases hn with hn | hn
    · exact Or.inl (done_step hg hk s op n hn)
    · rcases List.mem_cons.mp hn with rfl | hn
      · exact Or.inl (done_invalidate hg hk s n)
      · exact Or.inr hn

/-- C33: invalidating a second time tells that it was invalid already. -/
theorem C33_second_time (g : Nat → Node) (rank : Nat → Nat) (hg : Acyclic g rank) (k : Nat)
    (hk : ∀ n, rank n < k) (h : List Op) (n : Nat) (hn : Op.invalidate n ∈ h) :
    (invalidate g k (after g k fresh h) n).1 = true := by
  rcases done_after hg hk h fresh n (Or.inr hn) with hd | ⟨f, hf, hr⟩
  · unfold invalidate
    cases g n with
    | goal sim =>
      cases sim with
      | none => exact hd
      | some p => exact simInvalidate_keeps hg hk _ _ _ n hd
    | sim f => simp only [simInvalidate]; rw [if_pos hd]
    | _ => exact hd
  · have h1 := (query_good hg k (after g k fresh h) f (hk f)).1.mpr hr
    simp only [invalidate, hf, simInvalidate]
    split
    · rfl
    · cases e : query g k (after g k fresh h) f with
      | mk b s' => rw [e] at h1; simp only at h1; subst h1; rfl

/-! ## A concrete graph

1: a super-goal, 2: the fact of it; 3: a simulation under it; 4: a goal with that simulation, 5: the
fact of it; 6: a prediction (with a target, 7) in that simulation, 8: the fact of it; 9: another
simulation with its goal 10 under 5. -/
def g0 : Nat → Node
  | 1 => .goal none
  | 2 => .fact 1
  | 3 => .sim 2
  | 4 => .goal (some (3, 2))
  | 5 => .fact 4
  | 6 => .pred [3] [] [] 7
  | 8 => .fact 6
  | 9 => .sim 5
  | 10 => .goal (some (9, 5))
  | _ => .plain

def rank0 (n : Nat) : Nat := if n ≤ 6 then (if n = 6 then 11 else n) else if n = 7 then 0 else if n ≤ 10 then n + 5 else 0

theorem g0_acyclic : Acyclic g0 rank0 := by
  constructor
  · intro n m hm
    match n with
    | 0 => simp [g0, deps] at hm
    | 1 => simp [g0, deps] at hm
    | 2 => simp [g0, deps] at hm; subst hm; decide
    | 3 => simp [g0, deps] at hm; subst hm; decide
    | 4 => simp [g0, deps] at hm; subst hm; decide
    | 5 => simp [g0, deps] at hm; subst hm; decide
    | 6 => simp [g0, deps] at hm; rcases hm with rfl | rfl <;> decide
    | 7 => simp [g0, deps] at hm
    | 8 => simp [g0, deps] at hm; subst hm; decide
    | 9 => simp [g0, deps] at hm; subst hm; decide
    | 10 => simp [g0, deps] at hm; subst hm; decide
    | n + 11 => simp [g0, deps] at hm
  · intro n m f h
    match n with
    | 0 | 1 | 2 | 3 | 5 | 6 | 7 | 8 | 9 => simp [g0] at h
    | 4 => simp [g0] at h; obtain ⟨rfl, rfl⟩ := h; rfl
    | 10 => simp [g0] at h; obtain ⟨rfl, rfl⟩ := h; rfl
    | n + 11 => simp [g0] at h

theorem rank0_lt (n : Nat) : rank0 n < 20 := by
  unfold rank0
  repeat' split
  all_goals omega

/-- Invalidating the goal 4 makes the prediction 8 and the goal 10 invalid, not the super-goal. -/
example : [2, 3, 4, 5, 6, 7, 8, 9, 10].map
    (fun n => (query g0 20 (after g0 20 fresh [.query 8, .invalidate 4]) n).1) =
    [false, true, true, true, true, false, true, true, true] := by decide

end Verif.Invalidation
