import Verif.Ctx.Lemmas
/-!
# Comparing and matching (C146, C147)
-/
namespace Verif.Ctx
open Verif.Atom

/-! ## Kinds and words -/

theorem ite_split {c : Prop} [Decidable c] {x y z : Kind} (h : (if c then x else y) = z) : (c ∧ x = z) ∨ (¬ c ∧ y = z) := by
  by_cases hc : c
  · exact Or.inl ⟨hc, by rwa [if_pos hc] at h⟩
  · exact Or.inr ⟨hc, by rwa [if_neg hc] at h⟩

theorem kindOf_struct {d k a n j : Nat} (h : kindOf d k a n = .struct j ∨ kindOf d k a n = .raw j) : n = j ∧ 0xC0 ≤ d := by
  unfold kindOf at h
  rcases h with h | h
  all_goals
    repeat' (replace h := ite_split h; rcases h with ⟨_, h⟩ | ⟨_, h⟩)
  all_goals first
    | (exfalso; exact Kind.noConfusion h)
    | (cases h; exact ⟨rfl, by omega⟩)

theorem kindOf_atom {d k a n : Nat} (h : kindOf d k a n = .atom ∨ kindOf d k a n = .wild) : d < 0xC0 := by
  unfold kindOf at h
  rcases h with h | h
  all_goals
    repeat' (replace h := ite_split h; rcases h with ⟨_, h⟩ | ⟨_, h⟩)
  all_goals first
    | (exfalso; exact Kind.noConfusion h)
    | omega

theorem kindOf_wild {d k a n : Nat} : kindOf d k a n = .wild ↔ d = 0x82 ∨ d = 0x83 := by
  constructor
  · intro h
    unfold kindOf at h
    repeat' (replace h := ite_split h; rcases h with ⟨_, h⟩ | ⟨_, h⟩)
    all_goals first
      | (exfalso; exact Kind.noConfusion h)
      | omega
  · rintro (rfl | rfl) <;> rfl

theorem hole_kind (w : Word) : hole w = (kind w == .wild) := by
  have hd : w.toNat / 2 ^ 24 = (getDescriptor w).toNat := by rw [getDescriptor_toNat]
  rw [Bool.eq_iff_iff, beq_iff_eq]
  show _ ↔ kindOf _ _ _ _ = _
  rw [kindOf_wild, ← hd, hole, Bool.or_eq_true, beq_iff_eq, beq_iff_eq]

theorem kind_struct_count {w : Word} {n : Nat} (h : kind w = .struct n ∨ kind w = .raw n) : (getAtomCount w).toNat = n := (kindOf_struct h).1

theorem kind_structural {w : Word} {n : Nat} (h : kind w = .struct n ∨ kind w = .raw n) : isStructural w = true := by
  rw [isStructural_eq, decide_eq_true_eq]
  have := (kindOf_struct h).2
  rw [getDescriptor_toNat] at this
  omega

theorem kind_atom {w : Word} (h : kind w = .atom ∨ kind w = .wild) : isStructural w = false := by
  rw [isStructural_eq, decide_eq_false_iff_not]
  have := kindOf_atom h
  rw [getDescriptor_toNat] at this
  omega

theorem at_of_word {m : Mem} {c : Ctx} {w : Word} (h : m.word c = some w) : m.at c = some (kind w) := by simp [Mem.at, h]

/-- No raw word of a value looks like a pointer, a wildcard or a structure. -/
def Val.tame : Val → Prop
  | .raw _ ws => ∀ w ∈ ws, kind w = .atom
  | .node _ _ ks => ks.tame
  | .cons v vs => v.tame ∧ vs.tame
  | _ => True

/-- What a context that is no pointer stands for is there. -/
theorem go_here {m : Mem} {c d : Ctx} (h : Final m c) (hg : Go m c [] d) : d = c := by
  obtain ⟨k, hk, hf⟩ := h
  cases hg with
  | here => rfl
  | _ => exfalso; simp_all; subst hk; simp [Kind.final] at hf

/-- The value of a context is the value of what it points to. -/
theorem den_here {m : Mem} {c : Ctx} {v : Val} (h : Den m false c v) : ∃ d, Go m c [] d ∧ Den m false d v := by
  cases h with
  | atom h1 h2 h3 h4 => exact ⟨_, h1, .atom (.here (go_final h1)) h2 h3 h4⟩
  | raw h1 h2 h3 h4 h5 => exact ⟨_, h1, .raw (.here (go_final h1)) h2 h3 h4 h5⟩
  | node h1 h2 h3 h4 h5 => exact ⟨_, h1, .node (.here (go_final h1)) h2 h3 h4 h5⟩

theorem head_ident (c : Ctx) : c.head = (ident c).isSome := by
  unfold Ctx.head ident
  cases c.sp with
  | obj o => by_cases h : c.i = 0 <;> simp [h]
  | _ => rfl

theorem sp_ident (c d : Ctx) (hc : c.head = true) (hd : d.head = true) : (c.sp == d.sp) = (ident c == ident d) := by
  obtain ⟨sp, i⟩ := c
  obtain ⟨sp', j⟩ := d
  cases sp <;> cases sp' <;> simp_all [Ctx.head, ident]
  rw [Bool.eq_iff_iff]; simp

/-- A loop over members, eventually. -/
theorem every_cons {F : Nat → Nat → Option Bool} {i n : Nat} {a b : Bool} (h1 : Ev (fun N => F N i) a) (h2 : Ev (fun N => every (F N) (i + 1) n) b) :
    Ev (fun N => every (F N) i (n + 1)) (a && b) := by
  obtain ⟨p, hp⟩ := h1
  obtain ⟨q, hq⟩ := h2
  refine ⟨max p q, fun N hN => ?_⟩
  have e1 := hp N (by omega)
  have e2 := hq N (by omega)
  simp only at e1 e2
  cases a <;> simp [every, e1, e2]

/-! ## C146 -/

theorem equ_step {m : Mem} (ht : m.tidy) {c d l r : Ctx} (hc : Go m c [] l) (hd : Go m d [] r) {x : Bool}
    (h : Ev (fun N => if l.head && r.head then some (l.sp == r.sp)
      else (m.word l).bind fun a => (m.word r).bind fun b =>
        if a ≠ b then some false
        else if isStructural a then
          every (fun i => (deref m N (l.child i)).bind fun x => (deref m N (r.child i)).bind fun y => equ m N x y) 1 (getAtomCount a).toNat
        else some true) x) : Ev (fun N => equ m N c d) x := by
  refine Ev.succ ?_
  exact (go_deref' ht hc).bind (g := fun N l => (deref m N d).bind fun r => if l.head && r.head then some (l.sp == r.sp)
      else (m.word l).bind fun a => (m.word r).bind fun b =>
        if a ≠ b then some false
        else if isStructural a then
          every (fun i => (deref m N (l.child i)).bind fun x => (deref m N (r.child i)).bind fun y => equ m N x y) 1 (getAtomCount a).toNat
        else some true) ((go_deref' ht hd).bind (g := fun N r => if l.head && r.head then some (l.sp == r.sp)
      else (m.word l).bind fun a => (m.word r).bind fun b =>
        if a ≠ b then some false
        else if isStructural a then
          every (fun i => (deref m N (l.child i)).bind fun x => (deref m N (r.child i)).bind fun y => equ m N x y) 1 (getAtomCount a).toNat
        else some true) h)

/-- One member of the loop of `==`. -/
def kid (m : Mem) (l r : Ctx) (N i : Nat) : Option Bool :=
  (deref m N (l.child i)).bind fun x => (deref m N (r.child i)).bind fun y => equ m N x y

theorem kid_ev {m : Mem} (ht : m.tidy) {l r x y : Ctx} {i : Nat} {b : Bool} (h1 : Go m (l.child i) [] x) (h2 : Go m (r.child i) [] y)
    (h : Ev (fun N => equ m N x y) b) : Ev (fun N => kid m l r N i) b :=
  (go_deref' ht h1).bind (g := fun N x => (deref m N (r.child i)).bind fun y => equ m N x y)
    ((go_deref' ht h2).bind (g := fun N y => equ m N x y) h)

theorem go_atom {m : Mem} {c : Ctx} {w : Word} (h : m.word c = some w) (hk : kind w = .atom) : Go m c [] c :=
  .here ⟨_, at_of_word h, by rw [hk]; rfl⟩

/-- Raw words that are no pointers are compared as they are. -/
theorem raw_kids {m : Mem} (ht : m.tidy) (l r : Ctx) (n : Nat) : ∀ (i : Nat) (ws us : List Word), 0 < i →
    wordsAt m l i n = some ws → wordsAt m r i n = some us → (∀ w ∈ ws, kind w = .atom) → (∀ w ∈ us, kind w = .atom) →
    Ev (fun N => every (kid m l r N) i n) (ws == us) := by
  induction n with
  | zero =>
    intro i ws us _ h1 h2 _ _
    cases h1; cases h2
    exact Ev.const fun N => rfl
  | succ n ih =>
    intro i ws us hi h1 h2 t1 t2
    simp only [wordsAt] at h1 h2
    obtain ⟨w, hw, h1⟩ := Option.bind_eq_some_iff.mp h1
    obtain ⟨u, hu, h2⟩ := Option.bind_eq_some_iff.mp h2
    obtain ⟨ws', hws, rfl⟩ := Option.map_eq_some_iff.mp h1
    obtain ⟨us', hus, rfl⟩ := Option.map_eq_some_iff.mp h2
    have kw := t1 w (by simp)
    have ku := t2 u (by simp)
    have e : ((w :: ws') == (u :: us')) = ((w == u) && (ws' == us')) := rfl
    rw [e]
    refine every_cons ?_ (ih (i + 1) ws' us' (by omega) hws hus (fun x hx => t1 x (by simp [hx])) (fun x hx => t2 x (by simp [hx])))
    have g1 := go_atom hw kw
    have g2 := go_atom hu ku
    refine kid_ev ht g1 g2 (equ_step ht g1 g2 (Ev.const fun N => ?_))
    have hh : (l.child i).head = false := by
      unfold Ctx.head Ctx.child
      cases l.sp <;> simp
      omega
    simp only [hh, Bool.false_and, Bool.false_eq_true, if_false, hw, hu, Option.bind_some, kind_atom (Or.inl kw)]
    by_cases hwu : w = u <;> simp [hwu]

theorem ne_of_kind {a b : Word} (h : kind a ≠ kind b) : a ≠ b := fun e => h (by rw [e])

theorem equ_main {m : Mem} (ht : m.tidy) (v : Val) :
    (∀ c d w, Den m false c v → Den m false d w → v.tame → w.tame → Ev (fun N => equ m N c d) (same v w)) ∧
    (∀ (l r : Ctx) (i : Nat) (ls : Val), Den m true (l.child i) v → Den m true (r.child i) ls → v.length = ls.length → v.tame → ls.tame →
      Ev (fun N => every (kid m l r N) i v.length) (same v ls)) := by
  induction v with
  | atom p a =>
    refine ⟨?_, fun l r i ls h => by cases h⟩
    intro c d w h1 h2 _ _
    cases h1 with
    | atom g1 w1 k1 e1 =>
      cases h2 with
      | @atom _ q b g2 w2 k2 e2 =>
        refine equ_step ht g1 g2 (Ev.const fun N => ?_)
        simp only [e1, Bool.false_and, Bool.false_eq_true, if_false, w1, w2, Option.bind_some, kind_atom k1]
        by_cases hab : a = b <;> simp [same, hab]
      | raw g2 w2 k2 e2 _ =>
        refine equ_step ht g1 g2 (Ev.const fun N => ?_)
        simp only [e1, Bool.false_and, Bool.false_eq_true, if_false, w1, w2, Option.bind_some, same]
        rw [if_pos (ne_of_kind (by rcases k1 with k1 | k1 <;> rw [k1, k2] <;> simp))]
      | node g2 w2 k2 _ _ =>
        refine equ_step ht g1 g2 (Ev.const fun N => ?_)
        simp only [e1, Bool.false_and, Bool.false_eq_true, if_false, w1, w2, Option.bind_some, same]
        rw [if_pos (ne_of_kind (by rcases k1 with k1 | k1 <;> rw [k1, k2] <;> simp))]
  | raw h ws =>
    refine ⟨?_, fun l r i ls h => by cases h⟩
    intro c d w h1 h2 t1 t2
    cases h1 with
    | raw g1 w1 k1 e1 r1 =>
      cases h2 with
      | atom g2 w2 k2 e2 =>
        refine equ_step ht g1 g2 (Ev.const fun N => ?_)
        simp only [e1, Bool.false_and, Bool.false_eq_true, if_false, w1, w2, Option.bind_some, same]
        rw [if_pos (ne_of_kind (by rcases k2 with k2 | k2 <;> rw [k1, k2] <;> simp))]
      | raw g2 w2 k2 e2 r2 =>
        rename_i l n1 r g n2 us
        by_cases hab : h = g
        · subst hab
          have hn : n1 = n2 := by rw [k1] at k2; cases k2; rfl
          subst hn
          have e : same (.raw h ws) (.raw h us) = (ws == us) := by simp [same]
          rw [e]
          refine equ_step ht g1 g2 ((raw_kids ht l r n1 1 ws us (by omega) r1 r2 t1 t2).of fun N => ?_)
          simp only [e1, Bool.false_and, Bool.false_eq_true, if_false, w1, w2, Option.bind_some, ne_eq, not_true_eq_false,
            kind_structural (Or.inr k1), if_true, kind_struct_count (Or.inr k1)]
          rfl
        · refine equ_step ht g1 g2 (Ev.const fun N => ?_)
          simp [e1, w1, w2, same, hab]
      | node g2 w2 k2 _ _ =>
        refine equ_step ht g1 g2 (Ev.const fun N => ?_)
        simp only [e1, Bool.false_and, Bool.false_eq_true, if_false, w1, w2, Option.bind_some, same]
        rw [if_pos (ne_of_kind (by rw [k1, k2]; simp))]
  | node o h ks ih =>
    refine ⟨?_, fun l r i ls h => by cases h⟩
    intro c d w h1 h2 t1 t2
    cases h1 with
    | node g1 w1 k1 d1 n1 =>
      cases h2 with
      | atom g2 w2 k2 e2 =>
        refine equ_step ht g1 g2 (Ev.const fun N => ?_)
        simp only [e2, Bool.and_false, Bool.false_eq_true, if_false, w1, w2, Option.bind_some, same]
        rw [if_pos (ne_of_kind (by rcases k2 with k2 | k2 <;> rw [k1, k2] <;> simp))]
      | raw g2 w2 k2 e2 _ =>
        refine equ_step ht g1 g2 (Ev.const fun N => ?_)
        simp only [e2, Bool.and_false, Bool.false_eq_true, if_false, w1, w2, Option.bind_some, same]
        rw [if_pos (ne_of_kind (by rw [k1, k2]; simp))]
      | node g2 w2 k2 d2 n2 =>
        rename_i l n r g n' ls
        by_cases hh : l.head && r.head
        · refine equ_step ht g1 g2 (Ev.const fun N => ?_)
          rw [if_pos hh]
          rw [Bool.and_eq_true] at hh
          rw [sp_ident l r hh.1 hh.2]
          have a1 := hh.1; have a2 := hh.2
          rw [head_ident] at a1 a2
          simp [same, a1, a2]
        · have hh' : ((ident l).isSome && (ident r).isSome) = false := by rw [← head_ident, ← head_ident]; simpa using hh
          by_cases hab : h = g
          · subst hab
            have hn : n = n' := by rw [k1] at k2; cases k2; rfl
            subst hn
            have := ih.2 l r 1 ls d1 d2 (n1.trans n2.symm) t1 t2
            rw [n1] at this
            refine equ_step ht g1 g2 ?_
            have e : same (.node (ident l) h ks) (.node (ident r) h ls) = same ks ls := by simp [same, hh']
            rw [e]
            refine this.of fun N => ?_
            simp only [hh, Bool.false_eq_true, if_false, w1, w2, Option.bind_some, ne_eq, not_true_eq_false,
              kind_structural (Or.inl k1), if_true, kind_struct_count (Or.inl k1)]
            rfl
          · refine equ_step ht g1 g2 (Ev.const fun N => ?_)
            simp only [hh, Bool.false_eq_true, if_false, w1, w2, Option.bind_some, ne_eq, hab, not_false_eq_true, if_true]
            simp [same, hh', hab]
  | nil =>
    refine ⟨fun c d w h => (by cases h), ?_⟩
    intro l r i ls h1 h2 hl _ _
    cases ls <;> simp [Val.length] at hl
    all_goals cases h2
    exact Ev.const fun N => rfl
  | cons v vs ih1 ih2 =>
    refine ⟨fun c d w h => (by cases h), ?_⟩
    intro l r i ls h1 h2 hl t1 t2
    cases h1 with
    | cons a1 b1 =>
      cases h2 with
      | nil => simp [Val.length] at hl
      | cons a2 b2 =>
        rename_i w ws
        obtain ⟨x, gx, dx⟩ := den_here a1
        obtain ⟨y, gy, dy⟩ := den_here a2
        have hl' : vs.length = ws.length := by simpa [Val.length] using hl
        exact every_cons (kid_ev ht gx gy (ih1.1 x y w dx dy t1.1 t2.1)) (ih2.2 l r (i + 1) ws b1 b2 hl' t1.2 t2.2)

/-- C146 in part: = is right whenever no raw word of a timestamp, duration or string looks like a pointer or
a structure, and variables do not stand for chains of pointers. What is missing: all other words. -/
theorem C146_equal_partial (m : Mem) (ht : m.tidy) (c d : Ctx) (v w : Val) (hv : Den m false c v) (hw : Den m false d w)
    (tv : v.tame) (tw : w.tame) : ∃ n, ∀ N ≥ n, equ m N c d = some (same v w) := (equ_main ht v).1 c d w hv hw tv tw

def listMem (stem : List Word) : Mem :=
  { objs := fun _ => ⟨fun _ => none, []⟩, stem := fun i => stem[i]?, values := fun _ => none, pgm := 0, ipgm := 0, inputs := [], prods := [] }

/-- Twice the same timestamp. -/
def twice : Mem := listMem [0xC7000000#32, 0#32, 0xC1000001#32, 0#32, 0xC7000000#32, 0#32, 0xC1000001#32, 1#32]
/-- Two timestamps. -/
def apart : Mem := listMem [0xC7000000#32, 0#32, 0x84000006#32, 0xC7000000#32, 0#32, 0x84000007#32, 0#32, 0#32]

theorem den_raw (m : Mem) (i : Nat) (h : Word) (n : Nat) (ws : List Word) (h1 : m.stem i = some h) (h2 : kind h = .raw n)
    (h3 : wordsAt m ⟨.stem, i⟩ 1 n = some ws) : Den m false ⟨.stem, i⟩ (.raw h ws) :=
  .raw (d := ⟨.stem, i⟩) (.here ⟨kind h, by simp [Mem.at, Mem.word, h1], by rw [h2]; rfl⟩) h1 h2 rfl h3

theorem not_ev {α : Type} {f : Nat → Option α} {a b : α} {k : Nat} (h : ∀ N, f (N + k) = some a) (hab : a ≠ b) : ¬ ∃ n, ∀ N ≥ n, f N = some b := by
  rintro ⟨n, hn⟩
  have := hn (n + k) (by omega)
  rw [h n] at this
  exact hab (Option.some.inj this)

/-- C146 fails: the raw words of a timestamp are taken for pointers or structures if they look like them.
The same timestamp is then different from itself, and different ones are the same. -/
theorem C146_equal_violated : ¬ C146_full ∧
    (Den twice false ⟨.stem, 0⟩ (.raw 0xC7000000#32 [0#32, 0xC1000001#32]) ∧ Den twice false ⟨.stem, 4⟩ (.raw 0xC7000000#32 [0#32, 0xC1000001#32]) ∧
      ∀ N, equ twice (N + 4) ⟨.stem, 0⟩ ⟨.stem, 4⟩ = some false) ∧
    (Den apart false ⟨.stem, 0⟩ (.raw 0xC7000000#32 [0#32, 0x84000006#32]) ∧ Den apart false ⟨.stem, 3⟩ (.raw 0xC7000000#32 [0#32, 0x84000007#32]) ∧
      ∀ N, equ apart (N + 4) ⟨.stem, 0⟩ ⟨.stem, 3⟩ = some true) := by
  have k : kind 0xC7000000#32 = .raw 2 := by decide
  have a1 : Den twice false ⟨.stem, 0⟩ (.raw 0xC7000000#32 [0#32, 0xC1000001#32]) := den_raw _ _ _ 2 _ rfl k rfl
  have a2 : Den twice false ⟨.stem, 4⟩ (.raw 0xC7000000#32 [0#32, 0xC1000001#32]) := den_raw _ _ _ 2 _ rfl k rfl
  have a3 : ∀ N, equ twice (N + 4) ⟨.stem, 0⟩ ⟨.stem, 4⟩ = some false := fun N => rfl
  refine ⟨fun h => ?_, ⟨a1, a2, a3⟩, den_raw _ _ _ 2 _ rfl k rfl, den_raw _ _ _ 2 _ rfl k rfl, fun N => rfl⟩
  exact not_ev a3 (by decide) (h twice _ _ _ _ a1 a2)

/-- Two objects with the same code, and a structure like them. -/
def clones : Mem :=
  { listMem [0xC3000001#32, 0#32] with objs := fun _ => ⟨fun i => [0xC3000001#32, 0#32][i]?, []⟩ }

/-- What = says is not transitive: a structure is the same as each of two objects, which are not the
same. -/
theorem C146_not_transitive : ∀ N,
    equ clones (N + 3) ⟨.obj 1, 0⟩ ⟨.stem, 0⟩ = some true ∧ equ clones (N + 3) ⟨.stem, 0⟩ ⟨.obj 2, 0⟩ = some true ∧
    equ clones (N + 3) ⟨.obj 1, 0⟩ ⟨.obj 2, 0⟩ = some false := fun N => ⟨rfl, rfl, rfl⟩

/-- A fact-like structure in the program: a variable standing for a part of an input, a timestamp, a
reference. -/
def sample : Mem :=
  { objs := fun o =>
      if o = 5 then ⟨fun i => [0xC3000103#32, 0x84000004#32, 0x85000000#32, 7#32, 0xC7000000#32, 6#32, 77#32][i]?, [6]⟩
      else if o = 4 then ⟨fun _ => none, [6]⟩
      else if o = 6 then ⟨fun i => [0xC3000201#32, 3#32][i]?, []⟩
      else ⟨fun _ => none, []⟩
    stem := fun i => [0xC3000103#32, 0x8E000006#32, 0x85000000#32, 0x84000005#32, 0#32, 7#32, 0x88000001#32][i]?
    values := fun _ => none, pgm := 4, ipgm := 3, inputs := [5], prods := [] }

theorem at_list {l : List Word} {i : Nat} {x : Kind} (h : (l[i]?).map kind = some x) : x ∈ l.map kind := by
  obtain ⟨w, hw, rfl⟩ := Option.map_eq_some_iff.mp h
  exact List.mem_map_of_mem (List.mem_of_getElem? hw)

theorem sample_codevl {c : Ctx} {k : Nat} (h : sample.at c = some (.codevl k)) : c.sp = .stem ∧ k = 6 := by
  obtain ⟨sp, i⟩ := c
  cases sp with
  | stem =>
    have := at_list (l := [0xC3000103#32, 0x8E000006#32, 0x85000000#32, 0x84000005#32, 0#32, 7#32, 0x88000001#32]) h
    refine ⟨rfl, ?_⟩
    have e : [0xC3000103#32, 0x8E000006#32, 0x85000000#32, 0x84000005#32, 0#32, 7#32, 0x88000001#32].map kind =
        [.struct 3, .codevl 6, .rptr 0, .iptr 5, .atom, .atom, .inobj 0 1] := by decide
    rw [e] at this
    simpa using this
  | val => cases h
  | obj o =>
    exfalso
    by_cases h5 : o = 5
    · subst h5
      have := at_list (l := [0xC3000103#32, 0x84000004#32, 0x85000000#32, 7#32, 0xC7000000#32, 6#32, 77#32]) h
      have e : [0xC3000103#32, 0x84000004#32, 0x85000000#32, 7#32, 0xC7000000#32, 6#32, 77#32].map kind =
        [.struct 3, .iptr 4, .rptr 0, .atom, .raw 2, .atom, .atom] := by decide
      rw [e] at this
      simp at this
    · by_cases h4 : o = 4
      · subst h4; cases h
      · by_cases h6 : o = 6
        · subst h6
          have := at_list (l := [0xC3000201#32, 3#32]) h
          have e : [0xC3000201#32, 3#32].map kind = [.struct 1, .atom] := by decide
          rw [e] at this
          simp at this
        · simp [Mem.at, Mem.word, sample, h5, h4, h6] at h

theorem sample_tidy : sample.tidy := by
  intro c k h
  obtain ⟨h1, rfl⟩ := sample_codevl h
  have : sample.at ⟨c.sp, 6⟩ = some (.inobj 0 1) := by rw [h1]; decide
  rw [this]
  exact ⟨fun n => ⟨by simp, by simp, by simp⟩, fun j n hj => by simp at hj⟩

def entity : Val := .node (some 6) 0xC3000201#32 (.cons (.atom ⟨.obj 6, 1⟩ 3#32) .nil)
def sampleVal (id : Option Nat) (c : Ctx) : Val :=
  .node id 0xC3000103#32 (.cons (.raw 0xC7000000#32 [6#32, 77#32]) (.cons entity (.cons (.atom c 7#32) .nil)))

theorem fin {m : Mem} {c : Ctx} {k : Kind} (h : m.at c = some k) (hf : k.final = true) : Final m c := ⟨k, h, hf⟩

theorem sample_entity (c : Ctx) (h : Go sample c [] ⟨.obj 6, 0⟩) : Den sample false c entity :=
  .node (n := 1) h rfl (by decide) (.cons (.atom (.here (fin (k := .atom) (by decide) rfl)) rfl (by decide) rfl) .nil) rfl

theorem sample_stem : Den sample false ⟨.stem, 0⟩ (sampleVal none ⟨.stem, 5⟩) := by
  refine .node (d := ⟨.stem, 0⟩) (n := 3) (.here (fin (k := .struct 3) (by decide) rfl)) rfl (by decide) (.cons ?_ (.cons ?_ (.cons ?_ .nil))) rfl
  · refine .raw (d := ⟨.obj 5, 4⟩) (n := 2) ?_ rfl (by decide) rfl rfl
    refine .codevl (k := 6) (by decide) (.inobj (a := 0) (k := 1) (o := 5) (by decide) rfl (.iptr (k := 4) (by decide) (.here (fin (k := .raw 2) (by decide) rfl))))
  · exact sample_entity _ (.rptr (k := 0) (o := 6) (by decide) rfl (fin (k := .struct 1) (by decide) rfl))
  · exact .atom (d := ⟨.stem, 5⟩) (.iptr (k := 5) (by decide) (.here (fin (k := .atom) (by decide) rfl))) rfl (by decide) rfl

theorem sample_obj : Den sample false ⟨.obj 5, 0⟩ (sampleVal (some 5) ⟨.obj 5, 3⟩) := by
  refine .node (d := ⟨.obj 5, 0⟩) (n := 3) (.here (fin (k := .struct 3) (by decide) rfl)) rfl (by decide) (.cons ?_ (.cons ?_ (.cons ?_ .nil))) rfl
  · exact .raw (d := ⟨.obj 5, 4⟩) (n := 2) (.iptr (k := 4) (by decide) (.here (fin (k := .raw 2) (by decide) rfl))) rfl (by decide) rfl rfl
  · exact sample_entity _ (.rptr (k := 0) (o := 6) (by decide) rfl (fin (k := .struct 1) (by decide) rfl))
  · exact .atom (d := ⟨.obj 5, 3⟩) (.here (fin (k := .atom) (by decide) rfl)) rfl (by decide) rfl

theorem sampleVal_tame (id : Option Nat) (c : Ctx) : (sampleVal id c).tame := by
  refine ⟨?_, ?_⟩
  · intro w hw
    simp only [List.mem_cons, List.not_mem_nil, or_false] at hw
    rcases hw with rfl | rfl <;> decide
  · simp [Val.tame, entity]

theorem C146_nonvacuous : sample.tidy ∧ Den sample false ⟨.stem, 0⟩ (sampleVal none ⟨.stem, 5⟩) ∧
    Den sample false ⟨.obj 5, 0⟩ (sampleVal (some 5) ⟨.obj 5, 3⟩) ∧ (sampleVal none ⟨.stem, 5⟩).tame ∧ (sampleVal (some 5) ⟨.obj 5, 3⟩).tame ∧
    same (sampleVal none ⟨.stem, 5⟩) (sampleVal (some 5) ⟨.obj 5, 3⟩) = true :=
  ⟨sample_tidy, sample_stem, sample_obj, sampleVal_tame _ _, sampleVal_tame _ _, by decide⟩

/-! ## C147 -/

/-- Heads say how many members there are in their last byte (all but those of null programs). -/
def Val.counted : Val → Prop
  | .node _ h ks => (getAtomCount h).toNat = h.toNat % 256 ∧ ks.counted
  | .cons v vs => v.counted ∧ vs.counted
  | _ => True

theorem masked_desc {a b : Word} (h : masked a = masked b) : (getDescriptor a).toNat = (getDescriptor b).toNat := by
  rw [getDescriptor_toNat, getDescriptor_toNat]
  unfold masked at h
  omega

theorem kindOf_raw {d k a n j : Nat} (h : kindOf d k a n = .raw j) : d = 0xC6 ∨ d = 0xC7 ∨ d = 0xD0 := by
  unfold kindOf at h
  repeat' (replace h := ite_split h; rcases h with ⟨_, h⟩ | ⟨_, h⟩)
  all_goals first
    | (exfalso; exact Kind.noConfusion h)
    | omega

theorem kindOf_struct' {d k a n j : Nat} (h : kindOf d k a n = .struct j) : ¬ (d = 0xC6 ∨ d = 0xC7 ∨ d = 0xD0) := by
  unfold kindOf at h
  repeat' (replace h := ite_split h; rcases h with ⟨_, h⟩ | ⟨_, h⟩)
  all_goals first
    | (exfalso; exact Kind.noConfusion h)
    | omega

theorem desc_struct {a : Word} {n : Nat} (h : kind a = .struct n ∨ kind a = .raw n) : 0xC0 ≤ (getDescriptor a).toNat := (kindOf_struct h).2
theorem desc_atom {a : Word} (h : kind a = .atom ∨ kind a = .wild) : (getDescriptor a).toNat < 0xC0 := kindOf_atom h

/-- One member of the loop of `match`. -/
def mkid (m : Mem) (p x : Ctx) (N i : Nat) : Option Bool :=
  (deref m N (p.child i)).bind fun y => (deref m N (x.child i)).bind fun z => mat m N y z

theorem mkid_ev {m : Mem} (ht : m.tidy) {l r x y : Ctx} {i : Nat} {b : Bool} (h1 : Go m (l.child i) [] x) (h2 : Go m (r.child i) [] y)
    (h : Ev (fun N => mat m N x y) b) : Ev (fun N => mkid m l r N i) b :=
  (go_deref' ht h1).bind (g := fun N x => (deref m N (r.child i)).bind fun y => mat m N x y)
    ((go_deref' ht h2).bind (g := fun N y => mat m N x y) h)

theorem mat_raw_kids {m : Mem} (ht : m.tidy) (l r : Ctx) (n : Nat) : ∀ (i : Nat) (ws us : List Word), 0 < i →
    wordsAt m l i n = some ws → wordsAt m r i n = some us → (∀ w ∈ ws, kind w = .atom) → (∀ w ∈ us, kind w = .atom) →
    Ev (fun N => every (mkid m l r N) i n) (ws == us) := by
  induction n with
  | zero =>
    intro i ws us _ h1 h2 _ _
    cases h1; cases h2
    exact Ev.const fun N => rfl
  | succ n ih =>
    intro i ws us hi h1 h2 t1 t2
    simp only [wordsAt] at h1 h2
    obtain ⟨w, hw, h1⟩ := Option.bind_eq_some_iff.mp h1
    obtain ⟨u, hu, h2⟩ := Option.bind_eq_some_iff.mp h2
    obtain ⟨ws', hws, rfl⟩ := Option.map_eq_some_iff.mp h1
    obtain ⟨us', hus, rfl⟩ := Option.map_eq_some_iff.mp h2
    have kw := t1 w (by simp)
    have ku := t2 u (by simp)
    have e : ((w :: ws') == (u :: us')) = ((w == u) && (ws' == us')) := rfl
    rw [e]
    refine every_cons ?_ (ih (i + 1) ws' us' (by omega) hws hus (fun x hx => t1 x (by simp [hx])) (fun x hx => t2 x (by simp [hx])))
    have g1 := go_atom hw kw
    have g2 := go_atom hu ku
    refine mkid_ev ht g1 g2 (Ev.succ (Ev.const fun N => ?_))
    have hh : (l.child i).head = false := by
      unfold Ctx.head Ctx.child
      cases l.sp <;> simp
      omega
    simp only [mat, hh, Bool.false_and, Bool.false_eq_true, if_false, hw, hu, Option.bind_some, kind_atom (Or.inl kw), kw]

theorem wordsAt_length {m : Mem} {c : Ctx} {n : Nat} : ∀ {i : Nat} {ws : List Word}, wordsAt m c i n = some ws → ws.length = n := by
  induction n with
  | zero => intro i ws h; cases h; rfl
  | succ n ih =>
    intro i ws h
    simp only [wordsAt] at h
    obtain ⟨w, _, h⟩ := Option.bind_eq_some_iff.mp h
    obtain ⟨ws', hws, rfl⟩ := Option.map_eq_some_iff.mp h
    simp [ih hws]

theorem mat_main {m : Mem} (ht : m.tidy) (v : Val) :
    (∀ p x w, Final m p → Final m x → Den m false p v → Den m false x w → v.tame → w.tame → v.counted → w.counted →
      Ev (fun N => mat m N p x) (inst v w)) ∧
    (∀ (l r : Ctx) (i : Nat) (ls : Val), Den m true (l.child i) v → Den m true (r.child i) ls → v.length = ls.length → v.tame → ls.tame →
      v.counted → ls.counted → Ev (fun N => every (mkid m l r N) i v.length) (inst v ls)) := by
  induction v with
  | atom q a =>
    refine ⟨?_, fun l r i ls h => by cases h⟩
    intro p x w f1 f2 h1 h2 _ _ _ _
    cases h1 with
    | atom g1 w1 k1 e1 =>
      have := go_here f1 g1
      subst this
      have goal : ∀ (b : Word), m.word x = some b → ∀ N, mat m (N + 1) q x = some (hole a || a == b) := by
        intro b hb N
        rw [hole_kind]
        simp only [mat, e1, Bool.false_and, Bool.false_eq_true, if_false, w1, hb, Option.bind_some, kind_atom k1]
        rcases k1 with k1 | k1 <;> simp [k1]
      cases h2 with
      | @atom _ d b g2 w2 k2 e2 =>
        have := go_here f2 g2
        subst this
        exact Ev.succ (Ev.const (goal _ w2))
      | @raw _ d b n us g2 w2 k2 e2 _ =>
        have := go_here f2 g2
        subst this
        have hne : (a == b) = false := beq_eq_false_iff_ne.mpr (ne_of_kind (by rcases k1 with k1 | k1 <;> rw [k1, k2] <;> simp))
        have := goal _ w2
        simp only [hne, Bool.or_false] at this
        exact Ev.succ (Ev.const this)
      | @node _ d b n us g2 w2 k2 _ _ =>
        have := go_here f2 g2
        subst this
        have hne : (a == b) = false := beq_eq_false_iff_ne.mpr (ne_of_kind (by rcases k1 with k1 | k1 <;> rw [k1, k2] <;> simp))
        have := goal _ w2
        simp only [hne, Bool.or_false] at this
        exact Ev.succ (Ev.const this)
  | raw h ws =>
    refine ⟨?_, fun l r i ls h => by cases h⟩
    intro p x w f1 f2 h1 h2 t1 t2 _ _
    cases h1 with
    | @raw _ l _ n1 _ g1 w1 k1 e1 r1 =>
      have := go_here f1 g1
      subst this
      cases h2 with
      | @atom _ d b g2 w2 k2 e2 =>
        have := go_here f2 g2
        subst this
        refine Ev.succ (Ev.const fun N => ?_)
        have hne : masked h ≠ masked b := fun e => by
          have := masked_desc e
          have := desc_struct (Or.inr k1)
          have := desc_atom k2
          omega
        simp only [mat, e1, Bool.false_and, Bool.false_eq_true, if_false, w1, w2, Option.bind_some, kind_structural (Or.inr k1), if_true, inst]
        split_ifs <;> rfl
      | @node _ d b n us g2 w2 k2 _ _ =>
        have := go_here f2 g2
        subst this
        refine Ev.succ (Ev.const fun N => ?_)
        have hne : masked h ≠ masked b := fun e => by
          have e2 := masked_desc e
          have h3 := kindOf_raw k1
          have h4 := kindOf_struct' k2
          rw [e2] at h3
          exact h4 h3
        simp only [mat, e1, Bool.false_and, Bool.false_eq_true, if_false, w1, w2, Option.bind_some, kind_structural (Or.inr k1), if_true, inst]
        split_ifs <;> rfl
      | @raw _ r g n2 us g2 w2 k2 e2 r2 =>
        have := go_here f2 g2
        subst this
        have c1 := kind_struct_count (Or.inr k1)
        have c2 := kind_struct_count (Or.inr k2)
        by_cases hc : getAtomCount g = getAtomCount h
        · have hn : n1 = n2 := by rw [← c1, ← c2, hc]
          subst hn
          by_cases hm : masked h = masked g
          · have hm' : h.toNat / 8 = g.toNat / 8 := hm
            have e : inst (.raw h ws) (.raw g us) = (ws == us) := by simp [inst, hm']
            rw [e]
            refine Ev.succ ((mat_raw_kids ht l r n1 1 ws us (by omega) r1 r2 t1 t2).of fun N => ?_)
            simp only [mat, e1, Bool.false_and, Bool.false_eq_true, if_false, w1, w2, Option.bind_some, kind_structural (Or.inr k1), if_true,
              hc, hm, ne_eq, not_true_eq_false, c1]
            rfl
          · have hm' : ¬ h.toNat / 8 = g.toNat / 8 := hm
            have e : inst (.raw h ws) (.raw g us) = false := by simp [inst, hm']
            rw [e]
            refine Ev.succ (Ev.const fun N => ?_)
            simp only [mat, e1, Bool.false_and, Bool.false_eq_true, if_false, w1, w2, Option.bind_some, kind_structural (Or.inr k1), if_true,
              hc, hm, ne_eq, not_true_eq_false, not_false_eq_true]
        · have hl : ws ≠ us := by
            intro e
            have l1 := wordsAt_length r1
            have l2 := wordsAt_length r2
            rw [e] at l1
            apply hc
            apply BitVec.eq_of_toNat_eq
            omega
          have e : inst (.raw h ws) (.raw g us) = false := by simp [inst, hl]
          rw [e]
          refine Ev.succ (Ev.const fun N => ?_)
          simp only [mat, e1, Bool.false_and, Bool.false_eq_true, if_false, w1, w2, Option.bind_some, kind_structural (Or.inr k1), if_true,
            hc, ne_eq, not_false_eq_true]
  | node o h ks ih =>
    refine ⟨?_, fun l r i ls h => by cases h⟩
    intro p x w f1 f2 h1 h2 t1 t2 c1 c2
    cases h1 with
    | @node _ l _ n _ g1 w1 k1 d1 n1 =>
      have := go_here f1 g1
      subst this
      cases h2 with
      | @atom _ d b g2 w2 k2 e2 =>
        have := go_here f2 g2
        subst this
        refine Ev.succ (Ev.const fun N => ?_)
        have hne : masked h ≠ masked b := fun e => by
          have := masked_desc e
          have := desc_struct (Or.inl k1)
          have := desc_atom k2
          omega
        simp only [mat, e2, Bool.and_false, Bool.false_eq_true, if_false, w1, w2, Option.bind_some, kind_structural (Or.inl k1), if_true, inst]
        split_ifs <;> rfl
      | @raw _ d b n' us g2 w2 k2 e2 _ =>
        have := go_here f2 g2
        subst this
        refine Ev.succ (Ev.const fun N => ?_)
        have hne : masked h ≠ masked b := fun e => by
          have e2 := masked_desc e
          have h3 := kindOf_raw k2
          have h4 := kindOf_struct' k1
          rw [← e2] at h3
          exact h4 h3
        simp only [mat, e2, Bool.and_false, Bool.false_eq_true, if_false, w1, w2, Option.bind_some, kind_structural (Or.inl k1), if_true, inst]
        split_ifs <;> rfl
      | @node _ r g n' ls g2 w2 k2 d2 n2 =>
        have := go_here f2 g2
        subst this
        by_cases hh : l.head && r.head
        · refine Ev.succ (Ev.const fun N => ?_)
          unfold mat
          rw [if_pos hh]
          rw [Bool.and_eq_true] at hh
          rw [sp_ident l r hh.1 hh.2]
          have a1 := hh.1; have a2 := hh.2
          rw [head_ident] at a1 a2
          simp [inst, a1, a2]
        · have hh' : ((ident l).isSome && (ident r).isSome) = false := by rw [← head_ident, ← head_ident]; simpa using hh
          have m1 := kind_struct_count (Or.inl k1)
          have m2 := kind_struct_count (Or.inl k2)
          by_cases hab : h = g
          · subst hab
            have hn : n = n' := by rw [k1] at k2; cases k2; rfl
            subst hn
            have := ih.2 l r 1 ls d1 d2 (n1.trans n2.symm) t1 t2 c1.2 c2.2
            rw [n1] at this
            have e : inst (.node (ident l) h ks) (.node (ident r) h ls) = inst ks ls := by simp [inst, hh']
            rw [e]
            refine Ev.succ (this.of fun N => ?_)
            simp only [mat, hh, Bool.false_eq_true, if_false, w1, w2, Option.bind_some, ne_eq, not_true_eq_false,
              kind_structural (Or.inl k1), if_true, m1]
            rfl
          · have e : inst (.node (ident l) h ks) (.node (ident r) g ls) = false := by simp [inst, hh', hab]
            rw [e]
            refine Ev.succ (Ev.const fun N => ?_)
            by_cases hc : getAtomCount g = getAtomCount h
            · have hm : masked h ≠ masked g := by
                intro e
                apply hab
                apply BitVec.eq_of_toNat_eq
                have e1 := c1.1
                have e2 := c2.1
                rw [hc, e1] at e2
                unfold masked at e
                omega
              simp only [mat, hh, Bool.false_eq_true, if_false, w1, w2, Option.bind_some, kind_structural (Or.inl k1), if_true, hc, hm,
                ne_eq, not_true_eq_false, not_false_eq_true]
            · simp only [mat, hh, Bool.false_eq_true, if_false, w1, w2, Option.bind_some, kind_structural (Or.inl k1), if_true, hc,
                ne_eq, not_false_eq_true]
  | nil =>
    refine ⟨fun c d w _ _ h => (by cases h), ?_⟩
    intro l r i ls h1 h2 hl _ _ _ _
    cases ls <;> simp [Val.length] at hl
    all_goals cases h2
    exact Ev.const fun N => rfl
  | cons v vs ih1 ih2 =>
    refine ⟨fun c d w _ _ h => (by cases h), ?_⟩
    intro l r i ls h1 h2 hl t1 t2 c1 c2
    cases h1 with
    | cons a1 b1 =>
      cases h2 with
      | nil => simp [Val.length] at hl
      | @cons _ w ws a2 b2 =>
        obtain ⟨x, gx, dx⟩ := den_here a1
        obtain ⟨y, gy, dy⟩ := den_here a2
        have hl' : vs.length = ws.length := by simpa [Val.length] using hl
        exact every_cons (mkid_ev ht gx gy (ih1.1 x y w (go_final gx) (go_final gy) dx dy t1.1 t2.1 c1.1 c2.1))
          (ih2.2 l r (i + 1) ws b1 b2 hl' t1.2 t2.2 c1.2 c2.2)

/-- The variables of a pattern occur once. -/
def linear (p v : Val) : Prop := (holes p v).Pairwise fun a b => a.1 ≠ b.1

theorem same_refl (v : Val) : same v v = true := by
  induction v with
  | atom c w => simp [same]
  | raw h ws => simp [same]
  | node i h ks ih => simp [same, ih]
  | nil => rfl
  | cons v vs ih1 ih2 => simp [same, ih1, ih2]

theorem pairwise_key {l : List (Ctx × Val)} (h : l.Pairwise fun a b => a.1 ≠ b.1) {a b : Ctx × Val} (ha : a ∈ l) (hb : b ∈ l) (e : a.1 = b.1) :
    a = b := by
  induction h with
  | nil => cases ha
  | @cons x t hx _ ih =>
    rcases List.mem_cons.mp ha with rfl | ha'
    · rcases List.mem_cons.mp hb with rfl | hb'
      · rfl
      · exact absurd e (hx b hb')
    · rcases List.mem_cons.mp hb with rfl | hb'
      · exact absurd e.symm (hx a ha')
      · exact ih ha' hb'

theorem linear_consistent {p v : Val} (h : linear p v) : consistent p v := fun a ha b hb e => by
  rw [pairwise_key h ha hb e, same_refl]

/-- C147 in part: a skeleton in which no variable occurs twice matches exactly its instances, if no raw word
looks like a pointer, a wildcard or a structure. What is missing: all other words; variables that occur
more than once; null programs. -/
theorem C147_match_partial (m : Mem) (ht : m.tidy) (p x : Ctx) (v w : Val) (fp : Final m p) (fx : Final m x) (hv : Den m false p v)
    (hw : Den m false x w) (tv : v.tame) (tw : w.tame) (cv : v.counted) (cw : w.counted) :
    (∃ n, ∀ N ≥ n, mat m N p x = some (inst v w)) ∧
    (linear v w → ∃ n, ∀ N ≥ n, ∃ b, mat m N p x = some b ∧ (b = true ↔ inst v w = true ∧ consistent v w)) := by
  have h := (mat_main ht v).1 p x w fp fx hv hw tv tw cv cw
  refine ⟨h, fun hl => ?_⟩
  obtain ⟨n, hn⟩ := h
  exact ⟨n, fun N hN => ⟨_, hn N hN, by simp [linear_consistent hl]⟩⟩

/-- The skeletons (pair x: x) and (pair x: 2), and an input (pair 1 2). -/
def pairMem : Mem :=
  { objs := fun o => if o = 5 then ⟨fun i => [0xC3000102#32, 1#32, 2#32][i]?, []⟩ else ⟨fun _ => none, []⟩
    stem := fun i => [0xC3000102#32, 0x82000000#32, 0x8E000001#32, 0xC3000102#32, 0x82000000#32, 2#32][i]?
    values := fun _ => none, pgm := 4, ipgm := 3, inputs := [5], prods := [] }

def pairPat : Val := .node none 0xC3000102#32 (.cons (.atom ⟨.stem, 1⟩ 0x82000000#32) (.cons (.atom ⟨.stem, 1⟩ 0x82000000#32) .nil))
def pairVal : Val := .node (some 5) 0xC3000102#32 (.cons (.atom ⟨.obj 5, 1⟩ 1#32) (.cons (.atom ⟨.obj 5, 2⟩ 2#32) .nil))

theorem pair_pat : Den pairMem false ⟨.stem, 0⟩ pairPat := by
  refine .node (d := ⟨.stem, 0⟩) (n := 2) (.here (fin (k := .struct 2) (by decide) rfl)) rfl (by decide) (.cons ?_ (.cons ?_ .nil)) rfl
  · exact .atom (d := ⟨.stem, 1⟩) (.here (fin (k := .wild) (by decide) rfl)) rfl (by decide) rfl
  · exact .atom (d := ⟨.stem, 1⟩) (.codevl (k := 1) (by decide) (.here (fin (k := .wild) (by decide) rfl))) rfl (by decide) rfl

theorem pair_val : Den pairMem false ⟨.obj 5, 0⟩ pairVal := by
  refine .node (d := ⟨.obj 5, 0⟩) (n := 2) (.here (fin (k := .struct 2) (by decide) rfl)) rfl (by decide) (.cons ?_ (.cons ?_ .nil)) rfl
  · exact .atom (d := ⟨.obj 5, 1⟩) (.here (fin (k := .atom) (by decide) rfl)) rfl (by decide) rfl
  · exact .atom (d := ⟨.obj 5, 2⟩) (.here (fin (k := .atom) (by decide) rfl)) rfl (by decide) rfl

theorem pair_not_consistent : ¬ consistent pairPat pairVal := fun h => by
  have e : holes pairPat pairVal = [(⟨.stem, 1⟩, .atom ⟨.obj 5, 1⟩ 1#32), (⟨.stem, 1⟩, .atom ⟨.obj 5, 2⟩ 2#32)] := rfl
  have := h (⟨.stem, 1⟩, .atom ⟨.obj 5, 1⟩ 1#32) (by rw [e]; simp) (⟨.stem, 1⟩, .atom ⟨.obj 5, 2⟩ 2#32) (by rw [e]; simp) rfl
  revert this
  decide

/-- A timestamp in a skeleton of which a word has the descriptor of a wildcard. -/
def timeMem : Mem :=
  { objs := fun o => if o = 5 then ⟨fun i => [0xC3000101#32, 0x84000002#32, 0xC7000000#32, 6#32, 77#32][i]?, []⟩ else ⟨fun _ => none, []⟩
    stem := fun i => [0xC3000101#32, 0x84000002#32, 0xC7000000#32, 6#32, 0x82E3A781#32][i]?
    values := fun _ => none, pgm := 4, ipgm := 3, inputs := [5], prods := [] }

/-- C147 is violated: (pair x: x) matches (pair 1 2); a timestamp that has a word with the descriptor of a
wildcard matches other timestamps. -/
theorem C147_match_violated : ¬ C147_full ∧
    (∀ N, mat pairMem (N + 4) ⟨.stem, 0⟩ ⟨.obj 5, 0⟩ = some true) ∧
    (∀ N, mat timeMem (N + 4) ⟨.stem, 0⟩ ⟨.obj 5, 0⟩ = some true) := by
  have h1 : ∀ N, mat pairMem (N + 4) ⟨.stem, 0⟩ ⟨.obj 5, 0⟩ = some true := fun N => rfl
  refine ⟨fun h => ?_, h1, fun N => rfl⟩
  obtain ⟨n, hn⟩ := h pairMem ⟨.stem, 0⟩ ⟨.obj 5, 0⟩ pairPat pairVal (fin (k := .struct 2) (by decide) rfl) (fin (k := .struct 2) (by decide) rfl) pair_pat pair_val
  obtain ⟨b, hb, e⟩ := hn (n + 4) (by omega)
  rw [h1 n] at hb
  cases hb
  exact pair_not_consistent (e.mp rfl).2

theorem pat_tidy : pairMem.tidy := by
  intro c k h
  obtain ⟨sp, i⟩ := c
  cases sp with
  | stem =>
    have := at_list (l := [0xC3000102#32, 0x82000000#32, 0x8E000001#32, 0xC3000102#32, 0x82000000#32, 2#32]) h
    have e : [0xC3000102#32, 0x82000000#32, 0x8E000001#32, 0xC3000102#32, 0x82000000#32, 2#32].map kind = [.struct 2, .wild, .codevl 1, .struct 2, .wild, .atom] := by decide
    rw [e] at this
    have hk : k = 1 := by simpa using this
    subst hk
    have : pairMem.at ⟨.stem, 1⟩ = some .wild := by decide
    rw [this]
    exact ⟨fun n => ⟨by simp, by simp, by simp⟩, fun j n hj => by simp at hj⟩
  | val => cases h
  | obj o =>
    exfalso
    by_cases h5 : o = 5
    · subst h5
      have := at_list (l := [0xC3000102#32, 1#32, 2#32]) h
      have e : [0xC3000102#32, 1#32, 2#32].map kind = [.struct 2, .atom, .atom] := by decide
      rw [e] at this
      simp at this
    · have h' : (none : Option Kind) = some (.codevl k) := by simpa [Mem.at, Mem.word, pairMem, h5] using h
      cases h'

def linPat : Val := .node none 0xC3000102#32 (.cons (.atom ⟨.stem, 4⟩ 0x82000000#32) (.cons (.atom ⟨.stem, 5⟩ 2#32) .nil))

theorem lin_pat : Den pairMem false ⟨.stem, 3⟩ linPat := by
  refine .node (d := ⟨.stem, 3⟩) (n := 2) (.here (fin (k := .struct 2) (by decide) rfl)) rfl (by decide) (.cons ?_ (.cons ?_ .nil)) rfl
  · exact .atom (d := ⟨.stem, 4⟩) (.here (fin (k := .wild) (by decide) rfl)) rfl (by decide) rfl
  · exact .atom (d := ⟨.stem, 5⟩) (.here (fin (k := .atom) (by decide) rfl)) rfl (by decide) rfl

/-- The part that is proved speaks of (pair x: 2) and (pair 1 2), which match, and, in its first conjunct, of
(pair x: x). -/
theorem C147_nonvacuous : pairMem.tidy ∧ Den pairMem false ⟨.obj 5, 0⟩ pairVal ∧ pairVal.tame ∧ pairVal.counted ∧
    Den pairMem false ⟨.stem, 3⟩ linPat ∧ linPat.tame ∧ linPat.counted ∧ linear linPat pairVal ∧ inst linPat pairVal = true ∧
    Den pairMem false ⟨.stem, 0⟩ pairPat ∧ pairPat.tame ∧ pairPat.counted ∧ inst pairPat pairVal = true := by
  refine ⟨pat_tidy, pair_val, ?_, ?_, lin_pat, ?_, ?_, ?_, by decide, pair_pat, ?_, ?_, by decide⟩
  · simp [pairVal, Val.tame]
  · simp only [pairVal, Val.counted, and_true]; decide
  · simp [linPat, Val.tame]
  · simp only [linPat, Val.counted, and_true]; decide
  · have : holes linPat pairVal = [(⟨.stem, 4⟩, .atom ⟨.obj 5, 1⟩ 1#32)] := rfl
    rw [linear, this]
    exact List.pairwise_singleton _ _
  · simp [pairPat, Val.tame]
  · simp only [pairPat, Val.counted, and_true]; decide

end Verif.Ctx
