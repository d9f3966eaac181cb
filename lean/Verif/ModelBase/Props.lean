import Verif.ModelBase.Model
/-!
# Properties C36 and C37
-/
namespace Verif.ModelBase

/-! ## Lists of entries -/

/-- Some entry has this signature. -/
def Has (l : List Entry) (s : Nat) : Prop := ∃ e ∈ l, e.sig = s

/-- At most one entry per signature. -/
def Uniq (l : List Entry) : Prop := l.Pairwise fun a b => a.sig ≠ b.sig

theorem find_some {l : List Entry} {s : Nat} {e : Entry} (h : find l s = some e) : e ∈ l ∧ e.sig = s :=
  ⟨List.mem_of_find?_eq_some h, by simpa using List.find?_some h⟩

theorem find_none {l : List Entry} {s : Nat} : find l s = none ↔ ¬ Has l s := by
  unfold find Has
  rw [List.find?_eq_none]
  constructor
  · rintro h ⟨e, he, hs⟩; exact h e he (by simpa using hs)
  · intro h e he hs; exact h ⟨e, he, by simpa using hs⟩

theorem find_has {l : List Entry} {s : Nat} (h : Has l s) : ∃ e, find l s = some e := by
  cases e : find l s with
  | none => exact absurd h (find_none.mp e)
  | some x => exact ⟨x, rfl⟩

theorem find_uniq {l : List Entry} {e : Entry} (hu : Uniq l) (he : e ∈ l) : find l e.sig = some e := by
  obtain ⟨x, hx⟩ := find_has ⟨e, he, rfl⟩
  obtain ⟨h1, h2⟩ := find_some hx
  rw [hx]
  clear hx
  induction l with
  | nil => cases he
  | cons a l ih =>
    obtain ⟨p1, p2⟩ := List.pairwise_cons.mp hu
    rcases List.mem_cons.mp he with he' | he' <;> rcases List.mem_cons.mp h1 with h1' | h1'
    · rw [he', h1']
    · rw [he'] at h2; exact absurd h2.symm (p1 x h1')
    · rw [h1'] at h2; exact absurd h2 (p1 e he')
    · exact ih p2 he' h1'

theorem mem_erase {l : List Entry} {s : Nat} {e : Entry} : e ∈ erase l s ↔ e ∈ l ∧ e.sig ≠ s := by
  simp [erase]

theorem has_erase {l : List Entry} {s t : Nat} : Has (erase l s) t ↔ Has l t ∧ t ≠ s := by
  constructor
  · rintro ⟨e, he, rfl⟩; obtain ⟨h1, h2⟩ := mem_erase.mp he; exact ⟨⟨e, h1, rfl⟩, h2⟩
  · rintro ⟨⟨e, he, rfl⟩, h⟩; exact ⟨e, mem_erase.mpr ⟨he, h⟩, rfl⟩

theorem insert_new {l : List Entry} {e : Entry} (h : ¬ Has l e.sig) : insert l e = e :: l := by
  unfold insert; rw [find_none.mpr h]

theorem insert_old {l : List Entry} {e : Entry} (h : Has l e.sig) : insert l e = l := by
  obtain ⟨x, hx⟩ := find_has h
  unfold insert; rw [hx]

theorem has_insert {l : List Entry} {e : Entry} {t : Nat} : Has (insert l e) t ↔ Has l t ∨ t = e.sig := by
  by_cases h : Has l e.sig
  · rw [insert_old h]
    constructor
    · exact Or.inl
    · rintro (q | rfl)
      · exact q
      · exact h
  · rw [insert_new h]
    constructor
    · rintro ⟨x, hx, rfl⟩
      rcases List.mem_cons.mp hx with rfl | hx
      · exact Or.inr rfl
      · exact Or.inl ⟨x, hx, rfl⟩
    · rintro (⟨x, hx, rfl⟩ | rfl)
      · exact ⟨x, List.mem_cons_of_mem _ hx, rfl⟩
      · exact ⟨e, by simp, rfl⟩

theorem uniq_erase {l : List Entry} {s : Nat} (h : Uniq l) : Uniq (erase l s) := List.Pairwise.filter _ h

theorem uniq_insert {l : List Entry} {e : Entry} (h : Uniq l) : Uniq (insert l e) := by
  by_cases hh : Has l e.sig
  · rw [insert_old hh]; exact h
  · rw [insert_new hh]
    exact List.pairwise_cons.mpr ⟨fun x hx q => hh ⟨x, hx, q.symm⟩, h⟩

theorem has_refresh {l : List Entry} {e : Entry} {now : Int} {t : Nat} (he : Has l e.sig) :
    Has (refresh l e now) t ↔ Has l t := by
  unfold refresh
  rw [has_insert, has_erase]
  constructor
  · rintro (⟨q, _⟩ | rfl)
    · exact q
    · exact he
  · intro q
    by_cases h : t = e.sig
    · exact Or.inr h
    · exact Or.inl ⟨q, h⟩

theorem uniq_refresh {l : List Entry} {e : Entry} {now : Int} (h : Uniq l) : Uniq (refresh l e now) :=
  uniq_insert (uniq_erase h)

theorem mem_refresh {l : List Entry} {e x : Entry} {now : Int} :
    x ∈ refresh l e now ↔ x = ⟨e.mdl, e.sig, now⟩ ∨ (x ∈ l ∧ x.sig ≠ e.sig) := by
  unfold refresh
  rw [insert_new (by rw [has_erase]; exact fun h => h.2 rfl), List.mem_cons, mem_erase]

/-! ## Invariant -/

/-- No model is both usable and black-listed; no model is registered twice. -/
structure Ok (b : Base) : Prop where
  apart : ∀ s, ¬ (Has b.white s ∧ Has b.black s)
  white : Uniq b.white
  black : Uniq b.black

theorem Ok.mk' {w bl : List Entry} (h1 : ∀ s, Has w s → ¬ Has bl s) (h2 : Uniq w) (h3 : Uniq bl) : Ok ⟨w, bl⟩ :=
  ⟨fun s h => h1 s h.1 h.2, h2, h3⟩

theorem check_ok {b : Base} (hb : Ok b) (m s : Nat) (now : Int) : Ok (check b m s now).2 := by
  unfold check
  cases e : find b.black s with
  | some x =>
    obtain ⟨x1, rfl⟩ := find_some e
    refine .mk' (fun t ht => ?_) hb.white (uniq_refresh hb.black)
    rw [has_refresh ⟨x, x1, rfl⟩]; exact fun h => hb.apart t ⟨ht, h⟩
  | none =>
    simp only
    cases e' : find b.white s with
    | some x =>
      obtain ⟨x1, rfl⟩ := find_some e'
      refine .mk' (fun t ht => ?_) (uniq_refresh hb.white) hb.black
      rw [has_refresh ⟨x, x1, rfl⟩] at ht; exact fun h => hb.apart t ⟨ht, h⟩
    | none =>
      refine .mk' (fun t ht => ?_) (uniq_insert hb.white) hb.black
      rcases has_insert.mp ht with ht | rfl
      · exact fun h => hb.apart t ⟨ht, h⟩
      · exact find_none.mp e

theorem pair_ok {b : Base} (hb : Ok b) (m0 s0 m1 s1 s1' : Nat) (now : Int) :
    Ok (checkPair b m0 s0 m1 s1 s1' now).2 := by
  unfold checkPair
  cases e : find b.black s0 with
  | some x =>
    obtain ⟨x1, rfl⟩ := find_some e
    refine .mk' (fun t ht => ?_) hb.white (uniq_refresh hb.black)
    rw [has_refresh ⟨x, x1, rfl⟩]; exact fun h => hb.apart t ⟨ht, h⟩
  | none =>
    have n0 := find_none.mp e
    simp only
    cases e' : find b.white s0 with
    | some x =>
      obtain ⟨x1, rfl⟩ := find_some e'
      have hw : ∀ t, Has (refresh b.white x now) t ↔ Has b.white t := fun t => has_refresh ⟨x, x1, rfl⟩
      have uw : Uniq (refresh b.white x now) := uniq_refresh hb.white
      simp only
      cases e1 : find b.black s1' with
      | some y =>
        obtain ⟨y1, rfl⟩ := find_some e1
        refine .mk' (fun t ht => ?_) uw (uniq_refresh hb.black)
        rw [has_refresh ⟨y, y1, rfl⟩]; exact fun h => hb.apart t ⟨(hw t).mp ht, h⟩
      | none =>
        have n1 := find_none.mp e1
        simp only
        cases e2 : find (refresh b.white x now) s1' with
        | some y =>
          obtain ⟨y1, rfl⟩ := find_some e2
          refine .mk' (fun t ht => ?_) (uniq_refresh uw) hb.black
          rw [has_refresh ⟨y, y1, rfl⟩, hw] at ht; exact fun h => hb.apart t ⟨ht, h⟩
        | none =>
          simp only
          refine .mk' (fun t ht => ?_) (uniq_insert (by split; exact uniq_insert uw; exact uw)) hb.black
          rcases has_insert.mp ht with ht | rfl
          · split at ht
            · rcases has_insert.mp ht with ht | rfl
              · exact fun h => hb.apart t ⟨(hw t).mp ht, h⟩
              · exact n0
            · exact fun h => hb.apart t ⟨(hw t).mp ht, h⟩
          · exact n1
    | none =>
      simp only
      cases e1 : find b.black s1 with
      | some y =>
        obtain ⟨y1, rfl⟩ := find_some e1
        refine .mk' (fun t ht => ?_) hb.white (uniq_refresh hb.black)
        rw [has_refresh ⟨y, y1, rfl⟩]; exact fun h => hb.apart t ⟨ht, h⟩
      | none =>
        have n1 := find_none.mp e1
        simp only
        cases e2 : find b.white s1 with
        | some y =>
          obtain ⟨y1, rfl⟩ := find_some e2
          refine .mk' (fun t ht => ?_) (uniq_refresh hb.white) hb.black
          rw [has_refresh ⟨y, y1, rfl⟩] at ht; exact fun h => hb.apart t ⟨ht, h⟩
        | none =>
          refine .mk' (fun t ht => ?_) (uniq_insert (uniq_insert hb.white)) hb.black
          rcases has_insert.mp ht with ht | rfl
          · rcases has_insert.mp ht with ht | rfl
            · exact fun h => hb.apart t ⟨ht, h⟩
            · exact n0
          · exact n1

theorem step_ok {b : Base} (hb : Ok b) (thz : Int) (op : Op) : Ok (step thz b op) := by
  cases op with
  | check m s now => exact check_ok hb m s now
  | pair m0 s0 m1 s1 s1' now => exact pair_ok hb m0 s0 m1 s1 s1' now
  | failure m s now =>
    refine .mk' (fun t ht => ?_) (uniq_erase hb.white) (uniq_insert hb.black)
    obtain ⟨h1, h2⟩ := has_erase.mp ht
    rw [has_insert]
    rintro (h | h)
    · exact hb.apart t ⟨h1, h⟩
    · exact h2 h
  | timeout s =>
    refine .mk' (fun t ht => ?_) (uniq_erase hb.white) hb.black
    exact fun h => hb.apart t ⟨(has_erase.mp ht).1, h⟩
  | trim now =>
    refine .mk' (fun t ht => ?_) hb.white (List.Pairwise.filter _ hb.black)
    rintro ⟨e, he, rfl⟩
    exact hb.apart _ ⟨ht, e, (List.mem_filter.mp he).1, rfl⟩

theorem run_ok {b : Base} (hb : Ok b) (thz : Int) (h : List Op) : Ok (run thz b h) := by
  induction h generalizing b with
  | nil => exact hb
  | cons op l ih => exact ih (step_ok hb thz op)

/-- An empty model base. -/
def empty : Base := ⟨[], []⟩

theorem empty_ok : Ok empty := by
  refine .mk' (fun t ht => ?_) List.Pairwise.nil List.Pairwise.nil
  obtain ⟨e, he, _⟩ := ht; cases he

/-! ## C36 -/

/-- C36: no model is ever both usable and black-listed, and none is registered twice. -/
theorem C36_apart (thz : Int) (b : Base) (hb : Ok b) (h : List Op) :
    (∀ e ∈ (run thz b h).white, ∀ e' ∈ (run thz b h).black, e.sig ≠ e'.sig) ∧
    (run thz b h).white.Pairwise (fun a c => a.sig ≠ c.sig) := by
  have := run_ok hb thz h
  exact ⟨fun e he e' he' q => this.apart e.sig ⟨⟨e, he, rfl⟩, ⟨e', he', q.symm⟩⟩, this.white⟩

/-- C36: registering a usable known model returns the existing one. -/
theorem C36_known (thz : Int) (b : Base) (hb : Ok b) (h : List Op) (e : Entry)
    (he : e ∈ (run thz b h).white) (mdl : Nat) (now : Int) :
    (check (run thz b h) mdl e.sig now).1 = some e.mdl := by
  have ok := run_ok hb thz h
  unfold check
  rw [find_none.mpr fun hh => ok.apart e.sig ⟨⟨e, he, rfl⟩, hh⟩, find_uniq ok.white he]

/-- C36: registering a model registers it: it is refused now, or it (or the known equal one) is
returned and returned again by the next registration of an equal model, until it fails or times out. -/
theorem C36_registered (thz : Int) (b : Base) (hb : Ok b) (h : List Op) (mdl sig : Nat) (now : Int) (m : Nat)
    (hm : (check (run thz b h) mdl sig now).1 = some m) :
    ∃ e ∈ (check (run thz b h) mdl sig now).2.white, e.sig = sig ∧ e.mdl = m := by
  unfold check at hm ⊢
  cases e : find (run thz b h).black sig with
  | some x => rw [e] at hm; cases hm
  | none =>
    rw [e] at hm
    simp only at hm ⊢
    cases e' : find (run thz b h).white sig with
    | some x =>
      rw [e'] at hm
      simp only [Option.some.injEq] at hm
      obtain ⟨x1, rfl⟩ := find_some e'
      exact ⟨⟨x.mdl, x.sig, now⟩, mem_refresh.mpr (Or.inl rfl), rfl, hm⟩
    | none =>
      rw [e'] at hm
      simp only [Option.some.injEq] at hm
      subst hm
      exact ⟨⟨mdl, sig, now⟩, by rw [insert_new (find_none.mp e')]; simp, rfl, rfl⟩

/-- A black-listed entry that was touched at `t` or later. -/
def Black (b : Base) (s : Nat) (t : Int) : Prop := ∃ e ∈ b.black, e.sig = s ∧ t ≤ e.touch

/-- The time an operation happens at. -/
def Op.time : Op → Option Int
  | .check _ _ now => some now
  | .pair _ _ _ _ _ now => some now
  | .failure _ _ now => some now
  | .timeout _ => none
  | .trim now => some now

theorem black_refresh {b : Base} {w : List Entry} {s : Nat} {t now : Int} {e : Entry} (h : Black b s t)
    (ht : t ≤ now) : Black ⟨w, refresh b.black e now⟩ s t := by
  obtain ⟨x, x1, rfl, x2⟩ := h
  by_cases hx : x.sig = e.sig
  · exact ⟨⟨e.mdl, e.sig, now⟩, mem_refresh.mpr (Or.inl rfl), hx.symm, ht⟩
  · exact ⟨x, mem_refresh.mpr (Or.inr ⟨x1, hx⟩), rfl, x2⟩

theorem black_step {b : Base} {thz : Int} {s : Nat} {t : Int} (op : Op) (h : Black b s t)
    (ht : ∀ now, op.time = some now → t ≤ now) (htrim : ∀ now, op = .trim now → now - t < thz) :
    Black (step thz b op) s t := by
  cases op with
  | check m s' now =>
    have htn := ht now rfl
    simp only [step, check]
    cases find b.black s' with
    | some x => exact black_refresh h htn
    | none => simp only; cases find b.white s' <;> exact h
  | pair m0 s0 m1 s1 s1' now =>
    have htn := ht now rfl
    simp only [step, checkPair]
    cases find b.black s0 with
    | some x => exact black_refresh h htn
    | none =>
      simp only
      cases find b.white s0 with
      | some x =>
        simp only
        cases find b.black s1' with
        | some y => exact black_refresh h htn
        | none => simp only; cases find (refresh b.white x now) s1' <;> exact h
      | none =>
        simp only
        cases find b.black s1 with
        | some y => exact black_refresh h htn
        | none => simp only; cases find b.white s1 <;> exact h
  | failure m s' now =>
    obtain ⟨x, x1, x2, x3⟩ := h
    refine ⟨x, ?_, x2, x3⟩
    simp only [step, failure]
    by_cases hh : Has b.black s'
    · rw [insert_old hh]; exact x1
    · rw [insert_new hh]; exact List.mem_cons_of_mem _ x1
  | timeout s' => exact h
  | trim now =>
    obtain ⟨x, x1, x2, x3⟩ := h
    refine ⟨x, ?_, x2, x3⟩
    simp only [step, trim]
    rw [List.mem_filter]
    have := htrim now rfl
    refine ⟨x1, ?_⟩
    simp only [ge_iff_le, Bool.not_eq_true', decide_eq_false_iff_not, Int.not_le]
    omega

theorem black_run {thz : Int} {s : Nat} {t : Int} (h : List Op) (b : Base) (hb : Black b s t)
    (ht : ∀ op ∈ h, ∀ now, op.time = some now → t ≤ now)
    (htrim : ∀ now, Op.trim now ∈ h → now - t < thz) : Black (run thz b h) s t := by
  induction h generalizing b with
  | nil => exact hb
  | cons op l ih =>
    refine ih _ (black_step op hb (ht op (by simp)) ?_) (fun o ho => ht o (List.mem_cons_of_mem _ ho))
      (fun now hn => htrim now (List.mem_cons_of_mem _ hn))
    intro now hn; exact htrim now (by rw [hn]; simp)

theorem black_refused {b : Base} {s : Nat} {t : Int} (h : Black b s t) (mdl : Nat) (now : Int) :
    (check b mdl s now).1 = none := by
  obtain ⟨x, x1, x2, _⟩ := h
  obtain ⟨e, he⟩ := find_has (l := b.black) (s := s) ⟨x, x1, x2⟩
  unfold check; rw [he]

/-- The black-listing starts: the failure of a model that is not black-listed yet at time `t`, or
the refusal of one that is. -/
def Touches (b : Base) (s : Nat) (t : Int) (op : Op) : Prop :=
  (∃ m, op = .failure m s t ∧ ∀ e ∈ b.black, e.sig ≠ s) ∨ (∃ m, op = .check m s t ∧ (check b m s t).1 = none)

theorem touches_black {thz : Int} {b : Base} {s : Nat} {t : Int} {op : Op} (h : Touches b s t op) :
    Black (step thz b op) s t := by
  rcases h with ⟨m, rfl, hn⟩ | ⟨m, rfl, hn⟩
  · have hh : ¬ Has b.black s := by rintro ⟨e, he, hs⟩; exact hn e he hs
    refine ⟨⟨m, s, t⟩, ?_, rfl, Int.le_refl _⟩
    simp only [step, failure]
    rw [insert_new hh]; simp
  · unfold check at hn
    cases e : find b.black s with
    | none =>
      rw [e] at hn
      simp only at hn
      cases e' : find b.white s with
      | none => rw [e'] at hn; cases hn
      | some x => rw [e'] at hn; cases hn
    | some x =>
      simp only [step, check, e]
      obtain ⟨x1, rfl⟩ := find_some e
      exact ⟨⟨x.mdl, x.sig, t⟩, mem_refresh.mpr (Or.inl rfl), rfl, Int.le_refl _⟩

/-- C36: a model that failed (or was refused) at time `t` is refused as long as no trimming happens
at `t + thz` or later. -/
theorem C36_refused (thz : Int) (b : Base) (s : Nat) (t : Int) (op : Op) (h : List Op)
    (hop : Touches b s t op) (ht : ∀ o ∈ h, ∀ now, o.time = some now → t ≤ now)
    (htrim : ∀ now, Op.trim now ∈ h → now - t < thz) (mdl : Nat) (now : Int) :
    (check (run thz b (op :: h)) mdl s now).1 = none :=
  black_refused (black_run h _ (touches_black hop) ht htrim) mdl now

/-- Black-listed entries only come from failures and are touched only by failures and comparisons. -/
theorem black_source {thz : Int} (h : List Op) (b : Base) (e : Entry) (he : e ∈ (run thz b h).black) :
    (∃ e0 ∈ b.black, e0.sig = e.sig) ∨ (∃ m t, Op.failure m e.sig t ∈ h) := by
  induction h generalizing b with
  | nil => exact Or.inl ⟨e, he, rfl⟩
  | cons op l ih =>
    rcases ih _ he with ⟨x, x1, x2⟩ | ⟨m, t, hm⟩
    · have hs : Has (step thz b op).black e.sig := ⟨x, x1, x2⟩
      have keep : ∀ y : Entry, y ∈ b.black → ∀ now, Has (refresh b.black y now) e.sig → Has b.black e.sig :=
        fun y hy now q => (has_refresh ⟨y, hy, rfl⟩).mp q
      have : Has b.black e.sig ∨ ∃ m t, op = .failure m e.sig t := by
        cases op with
        | check m s' now =>
          left
          simp only [step, check] at hs
          cases q : find b.black s' with
          | some y => rw [q] at hs; exact keep y (find_some q).1 now hs
          | none =>
            rw [q] at hs; simp only at hs
            cases q' : find b.white s' <;> (rw [q'] at hs; exact hs)
        | pair m0 s0 m1 s1 s1' now =>
          left
          simp only [step, checkPair] at hs
          cases q : find b.black s0 with
          | some y => rw [q] at hs; exact keep y (find_some q).1 now hs
          | none =>
            rw [q] at hs; simp only at hs
            cases q' : find b.white s0 with
            | some y =>
              rw [q'] at hs; simp only at hs
              cases q1 : find b.black s1' with
              | some z => rw [q1] at hs; exact keep z (find_some q1).1 now hs
              | none =>
                rw [q1] at hs; simp only at hs
                cases q2 : find (refresh b.white y now) s1' <;> (rw [q2] at hs; exact hs)
            | none =>
              rw [q'] at hs; simp only at hs
              cases q1 : find b.black s1 with
              | some z => rw [q1] at hs; exact keep z (find_some q1).1 now hs
              | none =>
                rw [q1] at hs; simp only at hs
                cases q2 : find b.white s1 <;> (rw [q2] at hs; exact hs)
        | failure m s' now =>
          simp only [step, failure] at hs
          rcases has_insert.mp hs with q | q
          · exact Or.inl q
          · exact Or.inr ⟨m, now, by rw [q]⟩
        | timeout s' => exact Or.inl hs
        | trim now =>
          left
          obtain ⟨y, y1, y2⟩ := hs
          exact ⟨y, (List.mem_filter.mp y1).1, y2⟩
      rcases this with ⟨y, y1, y2⟩ | ⟨m, t, rfl⟩
      · exact Or.inl ⟨y, y1, y2⟩
      · exact Or.inr ⟨m, t, by simp⟩
    · exact Or.inr ⟨m, t, List.mem_cons_of_mem _ hm⟩

/-- C36: only models that failed are refused. -/
theorem C36_refused_only_failed (thz : Int) (h : List Op) (mdl s : Nat) (now : Int)
    (hr : (check (run thz empty h) mdl s now).1 = none) : ∃ m t, Op.failure m s t ∈ h := by
  unfold check at hr
  cases e : find (run thz empty h).black s with
  | none =>
    rw [e] at hr; simp only at hr
    cases e' : find (run thz empty h).white s <;> (rw [e'] at hr; cases hr)
  | some x =>
    obtain ⟨x1, rfl⟩ := find_some e
    rcases black_source h empty x x1 with ⟨y, y1, _⟩ | q
    · cases y1
    · exact q

/-- Times of the black list come from the operations on it. -/
theorem touch_bound {thz : Int} {T : Int} (h : List Op) (b : Base) (s : Nat)
    (hb : ∀ e ∈ b.black, e.sig = s → e.touch ≤ T) (ht : ∀ o ∈ h, ∀ now, o.time = some now → now ≤ T) :
    ∀ e ∈ (run thz b h).black, e.sig = s → e.touch ≤ T := by
  induction h generalizing b with
  | nil => exact hb
  | cons op l ih =>
    refine ih _ ?_ (fun o ho => ht o (List.mem_cons_of_mem _ ho))
    have htop := ht op (by simp)
    have keep : ∀ y : Entry, ∀ now, now ≤ T → ∀ e ∈ refresh b.black y now, e.sig = s → e.touch ≤ T := by
      intro y now hn e he hs
      rcases mem_refresh.mp he with rfl | ⟨h1, _⟩
      · exact hn
      · exact hb e h1 hs
    cases op with
    | check m s' now =>
      have hn := htop now rfl
      simp only [step, check]
      cases find b.black s' with
      | some y => exact keep y now hn
      | none => simp only; cases find b.white s' <;> exact hb
    | pair m0 s0 m1 s1 s1' now =>
      have hn := htop now rfl
      simp only [step, checkPair]
      cases find b.black s0 with
      | some y => exact keep y now hn
      | none =>
        simp only
        cases find b.white s0 with
        | some y =>
          simp only
          cases find b.black s1' with
          | some z => exact keep z now hn
          | none => simp only; cases find (refresh b.white y now) s1' <;> exact hb
        | none =>
          simp only
          cases find b.black s1 with
          | some z => exact keep z now hn
          | none => simp only; cases find b.white s1 <;> exact hb
    | failure m s' now =>
      have hn := htop now rfl
      intro e he hs
      simp only [step, failure] at he
      by_cases hh : Has b.black s'
      · rw [insert_old hh] at he; exact hb e he hs
      · rw [insert_new hh] at he
        rcases List.mem_cons.mp he with rfl | he
        · exact hn
        · exact hb e he hs
    | timeout s' => exact hb
    | trim now =>
      intro e he hs
      exact hb e (List.mem_filter.mp he).1 hs

theorem run_append (thz : Int) (b : Base) (h h' : List Op) : run thz b (h ++ h') = run thz (run thz b h) h' := by
  induction h generalizing b with
  | nil => rfl
  | cons op l ih => exact ih _

/-- C36: a model left alone for the retention time is accepted again: if everything before a
trimming happened at least `thz` before it, nothing is refused after it. -/
theorem C36_accepted_again (thz now : Int) (h : List Op) (mdl s : Nat) (now' : Int)
    (ht : ∀ o ∈ h, ∀ t, o.time = some t → t ≤ now - thz) :
    (check (run thz empty (h ++ [.trim now])) mdl s now').1 ≠ none := by
  have hb := touch_bound (thz := thz) h empty s (fun e he => by cases he) ht
  rw [run_append]
  intro hr
  unfold check at hr
  cases e : find (run thz (run thz empty h) [.trim now]).black s with
  | none =>
    rw [e] at hr; simp only at hr
    cases e' : find (run thz (run thz empty h) [.trim now]).white s <;> (rw [e'] at hr; cases hr)
  | some x =>
    obtain ⟨x1, x2⟩ := find_some e
    simp only [run, step, trim] at x1
    obtain ⟨x3, x4⟩ := List.mem_filter.mp x1
    have := hb x x3 x2
    simp only [ge_iff_le, Bool.not_eq_true', decide_eq_false_iff_not, Int.not_le] at x4
    omega

/-- A history: model 1 fails at 5 and an equal one is refused at 8, 17 (before trimming at 18) and
accepted at 30 after a trimming. -/
example :
    let h := [Op.check 1 100 0, .failure 1 100 5, .trim 14]
    (check (run 10 empty h) 2 100 8).1 = none ∧
    (check (run 10 empty (h ++ [.check 2 100 8, .trim 17])) 2 100 17).1 = none ∧
    (check (run 10 empty (h ++ [.check 2 100 8, .trim 17, .check 2 100 17, .trim 30])) 3 100 30).1 = some 3 := by
  decide

/-! ## C37 -/

/-- C37, in full: after registering a pair, if neither is refused, both are usable (the second with
the signature it ends up with). -/
def C37_full : Prop :=
  ∀ (b : Base), Ok b → ∀ (m0 s0 m1 s1 s1' : Nat) (now : Int) (r0 r1 : Nat) (b' : Base),
    checkPair b m0 s0 m1 s1 s1' now = ((some r0, some r1), b') →
    (∃ e ∈ b'.white, e.mdl = r0 ∧ e.sig = s0) ∧
    (∃ e ∈ b'.white, e.mdl = r1 ∧ e.sig = if r0 = m0 then s1 else s1')

/-- C37 does not hold: the second model known, the first one new: the first is returned as usable
but not registered. -/
theorem C37_pair_violated : ¬ C37_full ∧
    checkPair ⟨[⟨7, 200, 0⟩], []⟩ 1 100 2 200 201 5 = ((some 1, some 7), ⟨[⟨7, 200, 5⟩], []⟩) := by
  have hw : checkPair ⟨[⟨7, 200, 0⟩], []⟩ 1 100 2 200 201 5 = ((some 1, some 7), ⟨[⟨7, 200, 5⟩], []⟩) := by
    decide
  refine ⟨fun hf => ?_, hw⟩
  have ok : Ok ⟨[⟨7, 200, 0⟩], []⟩ := by
    refine .mk' (fun t _ h => ?_) (List.pairwise_cons.mpr ⟨by simp, List.Pairwise.nil⟩) List.Pairwise.nil
    obtain ⟨e, he, _⟩ := h; cases he
  obtain ⟨e, he, h1, h2⟩ := (hf _ ok 1 100 2 200 201 5 1 7 _ hw).1
  simp only [List.mem_cons, List.not_mem_nil, or_false] at he
  subst he
  cases h1

theorem mem_insert_self {l : List Entry} {e : Entry} (h : ¬ Has l e.sig) : e ∈ insert l e := by
  rw [insert_new h]; simp

theorem mem_insert_of_mem {l : List Entry} {e x : Entry} (h : x ∈ l) : x ∈ insert l e := by
  by_cases hh : Has l e.sig
  · rw [insert_old hh]; exact h
  · rw [insert_new hh]; exact List.mem_cons_of_mem _ h

/-- C37, what holds: if a new first model makes the second one new too (the second refers to the
first, so this needs an equal second model referring to an equal first one), both are usable
afterwards; a pair is refused only if the first is black-listed, its second model only if that is,
and if the second is refused the first is not registered.  The two models are different, and not in
the base before. -/
theorem C37_pair_partial (b : Base) (hb : Ok b) (m0 s0 m1 s1 s1' : Nat) (now : Int)
    (hne : s0 ≠ s1 ∧ s0 ≠ s1') (hm0 : ∀ e ∈ b.white, e.mdl ≠ m0)
    (hnew : (∀ e ∈ b.white, e.sig ≠ s0) → ∀ e ∈ b.white, e.sig ≠ s1)
    (r0 r1 : Option Nat) (b' : Base) (h : checkPair b m0 s0 m1 s1 s1' now = ((r0, r1), b')) :
    (r0 = none ↔ ∃ e ∈ b.black, e.sig = s0) ∧
    (∀ x, r0 = some x → (r1 = none ↔ ∃ e ∈ b.black, e.sig = if x = m0 then s1 else s1')) ∧
    (∀ x y, r0 = some x → r1 = some y →
      (∃ e ∈ b'.white, e.mdl = x ∧ e.sig = s0) ∧
      (∃ e ∈ b'.white, e.mdl = y ∧ e.sig = if x = m0 then s1 else s1')) ∧
    (r1 = none → ∀ s, (∃ e ∈ b'.white, e.sig = s) ↔ ∃ e ∈ b.white, e.sig = s) := by
  unfold checkPair at h
  cases e : find b.black s0 with
  | some x =>
    rw [e] at h
    simp only [Prod.mk.injEq] at h
    obtain ⟨⟨rfl, rfl⟩, rfl⟩ := h
    obtain ⟨x1, x2⟩ := find_some e
    exact ⟨⟨fun _ => ⟨x, x1, x2⟩, fun _ => rfl⟩, fun _ q => (by cases q), fun _ _ q => (by cases q),
      fun _ s => Iff.rfl⟩
  | none =>
    have n0 := find_none.mp e
    rw [e] at h
    simp only at h
    cases e' : find b.white s0 with
    | some x =>
      obtain ⟨x1, x2⟩ := find_some e'
      have hx := hm0 x x1
      rw [e'] at h
      simp only at h
      cases e1 : find b.black s1' with
      | some y =>
        rw [e1] at h
        simp only [Prod.mk.injEq] at h
        obtain ⟨⟨rfl, rfl⟩, rfl⟩ := h
        obtain ⟨y1, y2⟩ := find_some e1
        refine ⟨⟨fun q => (by cases q), fun q => absurd q n0⟩, ?_, fun _ _ _ q => (by cases q), ?_⟩
        · intro z hz; cases hz
          rw [if_neg hx]
          exact ⟨fun _ => ⟨y, y1, y2⟩, fun _ => rfl⟩
        · intro _ s; exact has_refresh ⟨x, x1, rfl⟩
      | none =>
        have n1 := find_none.mp e1
        rw [e1] at h
        simp only at h
        cases e2 : find (refresh b.white x now) s1' with
        | some y =>
          rw [e2] at h
          simp only [Prod.mk.injEq] at h
          obtain ⟨⟨rfl, rfl⟩, rfl⟩ := h
          obtain ⟨y1, y2⟩ := find_some e2
          refine ⟨⟨fun q => (by cases q), fun q => absurd q n0⟩, ?_, ?_, fun q => (by cases q)⟩
          · intro z hz; cases hz
            rw [if_neg hx]
            exact ⟨fun q => (by cases q), fun q => absurd q n1⟩
          · intro z w hz hw; cases hz; cases hw
            rw [if_neg hx]
            refine ⟨⟨⟨x.mdl, x.sig, now⟩, mem_refresh.mpr (Or.inr ⟨mem_refresh.mpr (Or.inl rfl), ?_⟩), rfl, x2⟩,
              ⟨⟨y.mdl, y.sig, now⟩, mem_refresh.mpr (Or.inl rfl), rfl, y2⟩⟩
            simp only; rw [x2, y2]; exact hne.2
        | none =>
          have n2 := find_none.mp e2
          rw [e2] at h
          simp only [Prod.mk.injEq] at h
          obtain ⟨⟨rfl, rfl⟩, rfl⟩ := h
          refine ⟨⟨fun q => (by cases q), fun q => absurd q n0⟩, ?_, ?_, fun q => (by cases q)⟩
          · intro z hz; cases hz
            rw [if_neg hx]
            exact ⟨fun q => (by cases q), fun q => absurd q n1⟩
          · intro z w hz hw; cases hz; cases hw
            rw [if_neg hx]
            simp only
            rw [if_neg hx]
            exact ⟨⟨⟨x.mdl, x.sig, now⟩, mem_insert_of_mem (mem_refresh.mpr (Or.inl rfl)), rfl, x2⟩,
              ⟨⟨m1, s1', now⟩, mem_insert_self n2, rfl, rfl⟩⟩
    | none =>
      have w0 := find_none.mp e'
      have hn1 := hnew fun q hq hs => w0 ⟨q, hq, hs⟩
      rw [e'] at h
      simp only at h
      cases e1 : find b.black s1 with
      | some y =>
        rw [e1] at h
        simp only [Prod.mk.injEq] at h
        obtain ⟨⟨rfl, rfl⟩, rfl⟩ := h
        obtain ⟨y1, y2⟩ := find_some e1
        refine ⟨⟨fun q => (by cases q), fun q => absurd q n0⟩, ?_, fun _ _ _ q => (by cases q), fun _ s => Iff.rfl⟩
        intro z hz; cases hz
        rw [if_pos rfl]
        exact ⟨fun _ => ⟨y, y1, y2⟩, fun _ => rfl⟩
      | none =>
        have n1 := find_none.mp e1
        rw [e1] at h
        simp only at h
        have e2 : find b.white s1 = none := find_none.mpr (by rintro ⟨q, hq, hs⟩; exact hn1 q hq hs)
        rw [e2] at h
        simp only [Prod.mk.injEq] at h
        obtain ⟨⟨rfl, rfl⟩, rfl⟩ := h
        refine ⟨⟨fun q => (by cases q), fun q => absurd q n0⟩, ?_, ?_, fun q => (by cases q)⟩
        · intro z hz; cases hz
          rw [if_pos rfl]
          exact ⟨fun q => (by cases q), fun q => absurd q n1⟩
        · intro z w hz hw; cases hz; cases hw
          rw [if_pos rfl]
          refine ⟨⟨⟨m0, s0, now⟩, mem_insert_of_mem (mem_insert_self w0), rfl, rfl⟩,
            ⟨⟨m1, s1, now⟩, mem_insert_self ?_, rfl, rfl⟩⟩
          rw [has_insert]
          rintro (q | q)
          · exact (find_none.mp e2) q
          · exact hne.1 q.symm

/-- C37: if the first model is refused, so is the second, and nothing becomes usable. -/
theorem C37_refused (b : Base) (m0 s0 m1 s1 s1' : Nat) (now : Int) (r1 : Option Nat) (b' : Base)
    (h : checkPair b m0 s0 m1 s1 s1' now = ((none, r1), b')) : r1 = none ∧ b'.white = b.white := by
  unfold checkPair at h
  cases e : find b.black s0 with
  | some x =>
    rw [e] at h
    simp only [Prod.mk.injEq] at h
    exact ⟨h.1.2.symm, by rw [← h.2]⟩
  | none =>
    rw [e] at h
    simp only at h
    cases e' : find b.white s0 with
    | some x =>
      rw [e'] at h
      simp only at h
      cases e1 : find b.black s1' with
      | some y => simp [e1] at h
      | none => cases e2 : find (refresh b.white x now) s1' <;> simp [e1, e2] at h
    | none =>
      rw [e'] at h
      simp only at h
      cases e1 : find b.black s1 with
      | some y => simp [e1] at h
      | none => cases e2 : find b.white s1 <;> simp [e1, e2] at h

/-- The hypotheses are met, in a base with another model. -/
example : checkPair ⟨[⟨7, 300, 0⟩], [⟨8, 400, 0⟩]⟩ 1 100 2 200 201 5 =
    ((some 1, some 2), ⟨[⟨2, 200, 5⟩, ⟨1, 100, 5⟩, ⟨7, 300, 0⟩], [⟨8, 400, 0⟩]⟩) := by decide

end Verif.ModelBase
