import Verif.Ctx.Spec
import Mathlib.Tactic.SplitIfs
/-!
# Following pointers
-/
namespace Verif.Ctx
open Verif.Atom

theorem chain_words {m : Mem} {c : Ctx} {ws : List Word} (hs : ∀ w ∈ ws, kind w ≠ .special) : ∀ {i n : Nat}, wordsAt m c i n = some ws →
    chain m c i n = some (ws.map fun w => w.toNat % 4096) := by
  induction ws with
  | nil =>
    intro i n h
    cases n with
    | zero => rfl
    | succ n =>
      simp only [wordsAt, Option.bind_eq_some_iff, Option.map_eq_some_iff] at h
      obtain ⟨_, _, _, _, h⟩ := h
      cases h
  | cons w ws ih =>
    intro i n h
    cases n with
    | zero => cases h
    | succ n =>
      simp only [wordsAt, Option.bind_eq_some_iff, Option.map_eq_some_iff] at h
      obtain ⟨_, h1, _, h2, h⟩ := h
      cases h
      simp only [chain, h1, if_neg (hs w List.mem_cons_self), ih (fun a ha => hs a (List.mem_cons_of_mem _ ha)) h2,
        Option.map_some, List.map_cons, Atom.asIndex_toNat]

/-- Variables stand for members, not for structures in place, and not for chains of pointers. -/
def Mem.tidy (m : Mem) : Prop :=
  ∀ c k, m.at c = some (.codevl k) →
    (∀ n, m.at ⟨c.sp, k⟩ ≠ some (.struct n) ∧ m.at ⟨c.sp, k⟩ ≠ some (.raw n) ∧ m.at ⟨c.sp, k⟩ ≠ some (.cptr n)) ∧
    ∀ j n, m.at ⟨c.sp, k⟩ = some (.iptr j) → m.at ⟨c.sp, j⟩ ≠ some (.cptr n)

def Ev {α : Type} (f : Nat → Option α) (r : α) : Prop := ∃ n, ∀ N ≥ n, f N = some r

theorem Ev.bind {α β : Type} {f : Nat → Option α} {a : α} {g : Nat → α → Option β} {b : β} (h : Ev f a) (k : Ev (fun N => g N a) b) :
    Ev (fun N => (f N).bind (g N)) b := by
  obtain ⟨n, hn⟩ := h
  obtain ⟨l, hl⟩ := k
  exact ⟨max n l, fun N hN => by
    show (f N).bind (g N) = some b
    rw [hn N (by omega), Option.bind_some]
    exact hl N (by omega)⟩

theorem Ev.succ {α : Type} {f : Nat → Option α} {a : α} (h : Ev (fun N => f (N + 1)) a) : Ev f a := by
  obtain ⟨n, hn⟩ := h
  refine ⟨n + 1, fun N hN => ?_⟩
  obtain ⟨k, rfl⟩ : ∃ k, N = k + 1 := ⟨N - 1, by omega⟩
  exact hn k (by omega)

theorem Ev.const {α : Type} {f : Nat → Option α} {a : α} (h : ∀ N, f N = some a) : Ev f a := ⟨0, fun N _ => h N⟩

theorem Ev.of {α : Type} {f g : Nat → Option α} {a : α} (h : Ev g a) (e : ∀ N, f N = g N) : Ev f a := by
  obtain ⟨n, hn⟩ := h
  exact ⟨n, fun N hN => by rw [e, hn N hN]⟩

theorem go_final {m : Mem} {c ks d} (h : Go m c ks d) : Final m d := by
  induction h with
  | here h => exact h
  | rptr _ _ h => exact h
  | value _ _ h => exact h
  | prod _ _ h => exact h
  | this _ h => exact h
  | iptr _ _ ih => exact ih
  | ipgm _ _ ih => exact ih
  | inobj _ _ _ ih => exact ih
  | dinobj _ _ _ _ ih => exact ih
  | codevl _ _ ih => exact ih
  | cptr _ _ _ _ ih => exact ih
  | walk _ _ _ ih => exact ih

theorem deref_final {m : Mem} {c : Ctx} (h : Final m c) : Ev (fun N => deref m N c) c := by
  obtain ⟨k, hk, hf⟩ := h
  refine Ev.succ (Ev.const fun N => ?_)
  simp only [deref, hk]
  cases k <;> simp_all [Kind.final]

theorem go_struct {m : Mem} {c d : Ctx} (h : Go m c [] d) : ∀ n, m.at c = some (.struct n) ∨ m.at c = some (.raw n) → d = c := by
  intro n hn
  cases h with
  | here => rfl
  | _ => rcases hn with hn | hn <;> simp_all

theorem go_deref {m : Mem} (ht : m.tidy) {c ks d} (h : Go m c ks d) : Ev (fun N => along (deref m N) c ks) d := by
  induction h with
  | here h => exact deref_final h
  | @iptr c k d h _ ih => exact Ev.succ (ih.of fun N => by simp [along, deref, h])
  | rptr h h2 _ => exact Ev.succ (Ev.const fun N => by simp [along, deref, h, h2])
  | ipgm h _ ih => exact Ev.succ (ih.of fun N => by simp [along, deref, h])
  | inobj h h2 _ ih => exact Ev.succ (ih.of fun N => by simp [along, deref, h, h2])
  | @dinobj c r k p d h _ _ ih1 ih2 =>
    refine Ev.succ ((ih1.bind (g := fun N p => deref m N ⟨.obj (m.object p), k⟩) ih2).of fun N => ?_)
    simp [along, deref, h]
  | value h h2 _ => exact Ev.succ (Ev.const fun N => by simp [along, deref, h, h2])
  | prod h h2 _ => exact Ev.succ (Ev.const fun N => by simp [along, deref, h, h2])
  | this h _ => exact Ev.succ (Ev.const fun N => by simp [along, deref, h])
  | @codevl c k d h hg ih =>
    obtain ⟨t1, t2⟩ := ht c k h
    have hne : m.at ⟨c.sp, k⟩ ≠ some .op := by
      intro ho
      cases hg with
      | here hf => obtain ⟨x, hx, hxf⟩ := hf; rw [ho] at hx; cases hx; simp [Kind.final] at hxf
      | _ => simp_all
    cases hk : m.at ⟨c.sp, k⟩ with
    | none => cases hg with
      | here hf => obtain ⟨x, hx, _⟩ := hf; rw [hk] at hx; cases hx
      | _ => simp_all
    | some x =>
      by_cases hx : ∃ j, x = .iptr j
      · obtain ⟨j, rfl⟩ := hx
        have hgj : Go m ⟨c.sp, j⟩ [] d := by
          cases hg with
          | here hf => obtain ⟨x, hx, hxf⟩ := hf; rw [hk] at hx; cases hx; simp [Kind.final] at hxf
          | iptr h1 h2 => rw [hk] at h1; cases h1; exact h2
          | _ => simp_all
        by_cases hs : ∃ n, m.at ⟨c.sp, j⟩ = some (.struct n) ∨ m.at ⟨c.sp, j⟩ = some (.raw n)
        · obtain ⟨n, hn⟩ := hs
          have := go_struct hgj n hn
          subst this
          refine Ev.succ (Ev.const fun N => ?_)
          rcases hn with hn | hn <;> simp [along, deref, h, hk, hn]
        · refine Ev.succ (ih.of fun N => ?_)
          have hc := t2 j
          have ho : m.at ⟨c.sp, j⟩ ≠ some .op := by
            intro ho
            cases hgj with
            | here hf => obtain ⟨x, hx, hxf⟩ := hf; rw [ho] at hx; cases hx; simp [Kind.final] at hxf
            | _ => simp_all
          simp only [along, deref, h, hk]
          split
          · rename_i n hn; exact absurd ⟨n, Or.inl hn⟩ hs
          · rename_i n hn; exact absurd ⟨n, Or.inr hn⟩ hs
          · rename_i n hn; exact absurd hn (hc n hk)
          · rename_i hn; exact absurd hn ho
          · rfl
      · refine Ev.succ (ih.of fun N => ?_)
        have t1' : ∀ n, x ≠ .struct n ∧ x ≠ .raw n ∧ x ≠ .cptr n := fun n => by
          have := t1 n; rw [hk] at this; simpa using this
        simp only [along, deref, h, hk]
        cases x with
        | struct n => exact absurd rfl (t1' n).1
        | raw n => exact absurd rfl (t1' n).2.1
        | cptr n => exact absurd rfl (t1' n).2.2
        | op => exact absurd hk hne
        | iptr j => exact absurd ⟨j, rfl⟩ hx
        | _ => rfl
  | @cptr c n ws d h h2 hs _ ih => exact Ev.succ (ih.of fun N => by simp [along, deref, h, chain_words hs h2])
  | @walk c e k ks d _ _ ih1 ih2 =>
    refine (ih1.bind (g := fun N e => along (deref m N) (e.child k) ks) ih2).of fun N => ?_
    cases hd : deref m N c <;> simp [along, hd]

theorem go_deref' {m : Mem} (ht : m.tidy) {c d} (h : Go m c [] d) : Ev (fun N => deref m N c) d := go_deref ht h

end Verif.Ctx
