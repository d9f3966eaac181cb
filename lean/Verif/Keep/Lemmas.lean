import Verif.Keep.Spec
/-!
# Copies in the array of values
-/
namespace Verif.Keep
open Verif.Ctx
open Verif.Atom hiding Val

/-! ## More values, more productions, other code -/

structure Grow (m m' : Mem) : Prop where
  objs : m'.objs = m.objs
  pgm : m'.pgm = m.pgm
  ipgm : m'.ipgm = m.ipgm
  inputs : m'.inputs = m.inputs
  values : ∀ {i x}, m.values i = some x → m'.values i = some x
  prods : ∀ {i : Nat} {x : Nat}, m.prods[i]? = some x → m'.prods[i]? = some x

theorem Grow.trans {a b c : Mem} (h : Grow a b) (k : Grow b c) : Grow a c :=
  ⟨k.objs.trans h.objs, k.pgm.trans h.pgm, k.ipgm.trans h.ipgm, k.inputs.trans h.inputs, fun x => k.values (h.values x), fun x => k.prods (h.prods x)⟩

theorem Grow.stem (m : Mem) (s : Nat → Option Word) : Grow m { m with stem := s } := ⟨rfl, rfl, rfl, rfl, id, id⟩

section
variable {m m' : Mem} (g : Grow m m')
include g

theorem Grow.word {c : Ctx} (hc : c.sp ≠ .stem) {w : Word} (h : m.word c = some w) : m'.word c = some w := by
  obtain ⟨sp, i⟩ := c
  cases sp with
  | stem => exact absurd rfl hc
  | val => exact g.values h
  | obj o => simpa [Mem.word, g.objs] using h

theorem Grow.at {c : Ctx} (hc : c.sp ≠ .stem) {k : Kind} (h : m.at c = some k) : m'.at c = some k := by
  obtain ⟨w, hw, rfl⟩ := Option.map_eq_some_iff.mp h
  exact at_of_word (g.word hc hw)

theorem Grow.final {c : Ctx} (hc : c.sp ≠ .stem) (h : Final m c) : Final m' c := by
  obtain ⟨k, h, hk⟩ := h
  exact ⟨k, g.at hc h, hk⟩

theorem Grow.refs {c : Ctx} : (m'.objs (m'.object c)).refs = (m.objs (m.object c)).refs := by
  obtain ⟨sp, i⟩ := c
  cases sp <;> simp [Mem.object, g.objs, g.pgm]

theorem Grow.object {c : Ctx} : m'.object c = m.object c := by
  obtain ⟨sp, i⟩ := c
  cases sp <;> simp [Mem.object, g.pgm]

theorem Grow.wordsAt {c : Ctx} (hc : c.sp ≠ .stem) {n : Nat} : ∀ {i : Nat} {ws : List Word}, wordsAt m c i n = some ws → wordsAt m' c i n = some ws := by
  induction n with
  | zero => intro i ks h; exact h
  | succ n ih =>
    intro i ws h
    simp only [Ctx.wordsAt] at h ⊢
    obtain ⟨w, hw, h⟩ := Option.bind_eq_some_iff.mp h
    obtain ⟨ws', hws, rfl⟩ := Option.map_eq_some_iff.mp h
    rw [g.word (c := c.child i) hc hw, Option.bind_some, ih hws]; rfl

theorem Grow.go {c ks d} (h : Go m c ks d) : c.sp ≠ .stem → Go m' c ks d ∧ d.sp ≠ .stem := by
  induction h with
  | here h => exact fun hc => ⟨.here (g.final hc h), hc⟩
  | iptr h _ ih => exact fun hc => ⟨.iptr (g.at hc h) (ih hc).1, (ih hc).2⟩
  | rptr h h2 h3 => exact fun hc => ⟨.rptr (g.at hc h) (by rw [g.refs]; exact h2) (g.final (by simp) h3), by simp⟩
  | ipgm h _ ih => exact fun hc => ⟨.ipgm (g.at hc h) (by rw [g.ipgm]; exact (ih (by simp)).1), (ih (by simp)).2⟩
  | inobj h h2 _ ih => exact fun hc => ⟨.inobj (g.at hc h) (by rw [g.inputs]; exact h2) (ih (by simp)).1, (ih (by simp)).2⟩
  | dinobj h _ _ ih1 ih2 => exact fun hc => ⟨.dinobj (g.at hc h) (ih1 hc).1 (by rw [g.object]; exact (ih2 (by simp)).1), (ih2 (by simp)).2⟩
  | value h h2 h3 => exact fun hc => ⟨.value (g.at hc h) h2 (g.final (by simp) h3), by simp⟩
  | prod h h2 h3 => exact fun hc => ⟨.prod (g.at hc h) (g.prods h2) (g.final (by simp) h3), by simp⟩
  | codevl h _ ih => exact fun hc => ⟨.codevl (g.at hc h) (ih hc).1, (ih hc).2⟩
  | this h h2 =>
    intro hc
    rw [← g.ipgm]
    exact ⟨.this (g.at hc h) (g.final (by simp) (by rw [g.ipgm]; exact h2)), by simp⟩
  | cptr h h2 hs _ ih => exact fun hc => ⟨.cptr (g.at hc h) (g.wordsAt hc h2) hs (ih hc).1, (ih hc).2⟩
  | walk _ _ ih1 ih2 => exact fun hc => ⟨.walk (ih1 hc).1 (ih2 (ih1 hc).2).1, (ih2 (ih1 hc).2).2⟩

theorem Grow.den {b c v} (h : Den m b c v) : c.sp ≠ .stem → Den m' b c v := by
  induction h with
  | atom h1 h2 h3 h4 => exact fun hc => .atom (g.go h1 hc).1 (g.word (g.go h1 hc).2 h2) h3 h4
  | raw h1 h2 h3 h4 h5 => exact fun hc => .raw (g.go h1 hc).1 (g.word (g.go h1 hc).2 h2) h3 h4 (g.wordsAt (g.go h1 hc).2 h5)
  | node h1 h2 h3 _ h5 ih => exact fun hc => .node (g.go h1 hc).1 (g.word (g.go h1 hc).2 h2) h3 (ih (g.go h1 hc).2) h5
  | nil => exact fun _ => .nil
  | cons _ _ ih1 ih2 => exact fun hc => .cons (ih1 hc) (ih2 hc)

end

/-! ## Pointers that can be moved to the values -/

/-- Pointers whose meaning does not depend on where they are. -/
def Kind.plain : Kind → Bool
  | .rptr _ => true
  | .ipgm _ => true
  | .inobj _ _ => true
  | .prod _ => true
  | .this => true
  | _ => false

theorem go_moved {m M : Mem} (g : Grow m M) {i w : Nat} {k : Kind} (h : m.at ⟨.stem, i⟩ = some k) (hk : Kind.plain k = true) (h' : M.at ⟨.val, w⟩ = some k)
    {d : Ctx} (hg : Go m ⟨.stem, i⟩ [] d) : Go M ⟨.val, w⟩ [] d ∧ d.sp ≠ .stem := by
  generalize hc : (⟨.stem, i⟩ : Ctx) = c at hg
  generalize hl : ([] : List Nat) = l at hg
  cases hg with
  | here hf =>
    subst hc
    obtain ⟨k', h1, h2⟩ := hf
    rw [h] at h1
    cases h1
    cases k <;> cases hk <;> cases h2
  | iptr e => subst hc; rw [h] at e; cases e; cases hk
  | rptr e h2 h3 =>
    subst hc; rw [h] at e; cases e
    refine ⟨.rptr h' ?_ (g.final (by simp) h3), by simp⟩
    simpa [Mem.object, g.objs, g.pgm] using h2
  | ipgm e h2 =>
    subst hc; rw [h] at e; cases e
    have := g.go h2 (by simp)
    exact ⟨.ipgm h' (by rw [g.ipgm]; exact this.1), this.2⟩
  | inobj e h2 h3 =>
    subst hc; rw [h] at e; cases e
    have := g.go h3 (by simp)
    exact ⟨.inobj h' (by rw [g.inputs]; exact h2) this.1, this.2⟩
  | dinobj e => subst hc; rw [h] at e; cases e; cases hk
  | value e => subst hc; rw [h] at e; cases e; cases hk
  | prod e h2 h3 =>
    subst hc; rw [h] at e; cases e
    exact ⟨.prod h' (g.prods h2) (g.final (by simp) h3), by simp⟩
  | codevl e => subst hc; rw [h] at e; cases e; cases hk
  | this e h2 =>
    subst hc; rw [h] at e; cases e
    rw [← g.ipgm]
    exact ⟨.this h' (g.final (by simp) (by rw [g.ipgm]; exact h2)), by simp⟩
  | cptr e => subst hc; rw [h] at e; cases e; cases hk
  | walk _ _ => cases hl

theorem den_moved {m M : Mem} (g : Grow m M) {i w : Nat} {k : Kind} (h : m.at ⟨.stem, i⟩ = some k) (hk : Kind.plain k = true) (h' : M.at ⟨.val, w⟩ = some k)
    {v : Val} (hd : Den m false ⟨.stem, i⟩ v) : Den M false ⟨.val, w⟩ v := by
  cases hd with
  | atom h1 h2 h3 h4 =>
    obtain ⟨a, b⟩ := go_moved g h hk h' h1
    exact .atom a (g.word b h2) h3 h4
  | raw h1 h2 h3 h4 h5 =>
    obtain ⟨a, b⟩ := go_moved g h hk h' h1
    exact .raw a (g.word b h2) h3 h4 (g.wordsAt b h5)
  | node h1 h2 h3 h4 h5 =>
    obtain ⟨a, b⟩ := go_moved g h hk h' h1
    exact .node a (g.word b h2) h3 (g.den h4 b) h5

theorem den_iptr {M : Mem} {w k : Nat} (h : M.at ⟨.val, w⟩ = some (.iptr k)) {v : Val} (hd : Den M false ⟨.val, k⟩ v) : Den M false ⟨.val, w⟩ v := by
  cases hd with
  | atom h1 h2 h3 h4 => exact .atom (.iptr h h1) h2 h3 h4
  | raw h1 h2 h3 h4 h5 => exact .raw (.iptr h h1) h2 h3 h4 h5
  | node h1 h2 h3 h4 h5 => exact .node (.iptr h h1) h2 h3 h4 h5

/-- What can be kept: `s` cells are taken besides its own. -/
inductive Fair (m : Mem) : Bool → Nat → Val → Nat → Prop
  | jump {i k v s} : m.at ⟨.stem, i⟩ = some (.iptr k) ∨ m.at ⟨.stem, i⟩ = some (.codevl k) → Fair m false k v s → Fair m false i v s
  | value {i k v} : m.at ⟨.stem, i⟩ = some (.value k) → Final m ⟨.val, k⟩ → Den m false ⟨.val, k⟩ v → Fair m false i v 0
  | moved {i k v} : m.at ⟨.stem, i⟩ = some k → Kind.plain k = true → Den m false ⟨.stem, i⟩ v → Fair m false i v 0
  | atom {i a} : m.word ⟨.stem, i⟩ = some a → kind a = .atom ∨ kind a = .wild → Fair m false i (.atom ⟨.stem, i⟩ a) 0
  | cptr {i n d a} : m.at ⟨.stem, i⟩ = some (.cptr n) → Go m ⟨.stem, i⟩ [] d → m.word d = some a → kind a = .atom ∨ kind a = .wild → d.head = false →
      Fair m false i (.atom d a) 0
  | raw {i h n ws} : m.word ⟨.stem, i⟩ = some h → kind h = .raw n → wordsAt m ⟨.stem, i⟩ 1 n = some ws →
      (h.toNat / 16777216 = 0xC6 → ∀ w ∈ ws, kind w = .atom) → Fair m false i (.raw h ws) (1 + n)
  | node {i h n ks s} : m.word ⟨.stem, i⟩ = some h → kind h = .struct n → Fair m true (i + 1) ks s → ks.length = n →
      Fair m false i (.node none h ks) (1 + n + s)
  | nil {i} : Fair m true i .nil 0
  | cons {i v vs s t} : Fair m false i v s → Fair m true (i + 1) vs t → Fair m true i (.cons v vs) (s + t)

theorem den_jump {m : Mem} {c : Ctx} {k : Nat} (h : m.at c = some (.iptr k) ∨ m.at c = some (.codevl k)) {v : Val} (hd : Den m false ⟨c.sp, k⟩ v) :
    Den m false c v := by
  have g : ∀ {d}, Go m ⟨c.sp, k⟩ [] d → Go m c [] d := fun g => by
    rcases h with h | h
    · exact .iptr h g
    · exact .codevl h g
  cases hd with
  | atom h1 h2 h3 h4 => exact .atom (g h1) h2 h3 h4
  | raw h1 h2 h3 h4 h5 => exact .raw (g h1) h2 h3 h4 h5
  | node h1 h2 h3 h4 h5 => exact .node (g h1) h2 h3 h4 h5

theorem fin_of {m : Mem} {c : Ctx} {a : Word} (h : m.word c = some a) (hk : kind a = .atom ∨ kind a = .wild) : Final m c :=
  ⟨_, at_of_word h, by rcases hk with hk | hk <;> rw [hk] <;> rfl⟩

theorem Fair.den {m : Mem} {b i v s} (h : Fair m b i v s) : Den m b ⟨.stem, i⟩ v := by
  induction h with
  | jump h _ ih => exact den_jump h ih
  | @value i k v h hf hd =>
    have g : ∀ {d}, Go m ⟨.val, k⟩ [] d → Go m ⟨.stem, i⟩ [] d := fun g => by
      rw [go_here hf g]
      exact .value h (Or.inl rfl) hf
    cases hd with
    | atom h1 h2 h3 h4 => exact .atom (g h1) h2 h3 h4
    | raw h1 h2 h3 h4 h5 => exact .raw (g h1) h2 h3 h4 h5
    | node h1 h2 h3 h4 h5 => exact .node (g h1) h2 h3 h4 h5
  | moved _ _ h => exact h
  | atom h hk => exact .atom (.here (fin_of h hk)) h hk rfl
  | cptr h g hw hk hd => exact .atom g hw hk hd
  | raw h hk hws _ => exact .raw (.here ⟨_, at_of_word h, by rw [hk]; rfl⟩) h hk rfl hws
  | @node i h n ks s hw hk _ hl ih => exact .node (d := ⟨.stem, i⟩) (.here ⟨_, at_of_word hw, by rw [hk]; rfl⟩) hw hk ih hl
  | nil => exact .nil
  | cons _ _ ih1 ih2 => exact .cons ih1 ih2

/-! ## Writing -/

/-- Cells are written once: those from `e` to `e'`, and some before. -/
structure Put (d d' : Dest) (e e' : Nat) (p : Nat → Prop) : Prop where
  le : Le d d'
  same : ∀ j, j < e → ¬ p j → d'.code j = d.code j
  clear : Clear d' e'
  full : ∀ j, e ≤ j → j < e' → (d'.code j).isSome = true
  got : ∀ j, p j → (d'.code j).isSome = true

abbrev over (m : Mem) (d : Dest) : Mem := { m with values := d.code }

/-- The values are still there. -/
def Has (m : Mem) (d : Dest) : Prop := ∀ {i x}, m.values i = some x → d.code i = some x

theorem grow_over {m : Mem} {d : Dest} (h : Has m d) : Grow m (over m d) := ⟨rfl, rfl, rfl, rfl, h, id⟩
theorem grow_le {m : Mem} {d d' : Dest} (h : Le d d') : Grow (over m d) (over m d') := ⟨rfl, rfl, rfl, rfl, h.code, id⟩
theorem Has.le {m : Mem} {d d' : Dest} (h : Has m d) (k : Le d d') : Has m d' := fun x => k.code (h x)

def Stands (m : Mem) (d : Dest) (b : Bool) (w : Nat) (v : Val) : Prop := ∃ v', Den (over m d) b ⟨.val, w⟩ v' ∧ alike v v'

theorem Stands.le {m : Mem} {d d' : Dest} (k : Le d d') {b w v} (h : Stands m d b w v) : Stands m d' b w v := by
  obtain ⟨v', h1, h2⟩ := h
  exact ⟨v', (grow_le k).den h1 (by simp), h2⟩

def Goal (m : Mem) (b : Bool) (i : Nat) (v : Val) (s : Nat) : Prop :=
  match b with
  | false =>
    (∀ w d e, w < e → d.code w = none → Clear d e → Has m d → e + s ≤ 4096 →
      ∃ d', Ev (fun N => member m N true ⟨.stem, i⟩ w d e) (d', e + s) ∧ Put d d' e (e + s) (· = w) ∧ Stands m d' false w v) ∧
    (∀ w d, Clear d w → Has m d → w + max 1 s ≤ 4096 →
      ∃ d', Ev (fun N => member m N false ⟨.stem, i⟩ w d (w + 1)) (d', w + max 1 s) ∧ Put d d' w (w + max 1 s) (fun _ => False) ∧ Stands m d' false w v)
  | true => ∀ i0 j, i = i0 + j → ∀ w d e, w + j + v.length ≤ e →
      (∀ l, w + j ≤ l → l < w + j + v.length → d.code l = none) → Clear d e → Has m d → e + s ≤ 4096 →
      ∃ d', Ev (fun N => each (fun i d e => member m N true (Ctx.child ⟨.stem, i0⟩ i) (w + i) d e) j v.length d e) (d', e + s) ∧
        Put d d' e (e + s) (fun l => w + j ≤ l ∧ l < w + j + v.length) ∧ Stands m d' true (w + j) v

theorem put_one {d : Dest} {w e : Nat} {x : Word} (h : d.code w = none) (hw : w < e) (hc : Clear d e) : Put d (d.put w x) e (e + 0) (· = w) :=
  ⟨Le.put h, fun j _ hj => put_other hj, fun j hj => by
      have : e ≤ j := hj
      rw [put_other (by omega)]; exact hc j this,
    fun j h1 h2 => absurd h2 (by omega), fun j hj => by subst hj; rw [put_self]; rfl⟩

theorem put_next {d : Dest} {w : Nat} {x : Word} (hc : Clear d w) : Put d (d.put w x) w (w + max 1 0) (fun _ => False) :=
  ⟨Le.put (hc w (Nat.le_refl w)), fun j hj _ => put_other (by omega), fun j hj => by
      have : w + 1 ≤ j := hj
      rw [put_other (by omega)]; exact hc j (by omega),
    fun j h1 h2 => by
      have : j < w + 1 := h2
      obtain rfl : j = w := by omega
      rw [put_self]; rfl, fun _ h => h.elim⟩

/-- A member of one cell. -/
theorem goal_one {m : Mem} {i : Nat} {v : Val} {x : Word} (he : ∀ p w d e, Ev (fun N => member m N p ⟨.stem, i⟩ w d e) (d.put w x, e))
    (hs : ∀ w d, Has m d → d.code w = some x → Stands m d false w v) : Goal m false i v 0 := by
  refine ⟨fun w d e hw hd hc hm _ => ⟨_, he true w d e, put_one hd hw hc, hs w _ (hm.le (Le.put hd)) put_self⟩, fun w d hc hm _ => ?_⟩
  exact ⟨_, he false w d (w + 1), put_next hc, hs w _ (hm.le (Le.put (hc w (Nat.le_refl w)))) put_self⟩

/-- A structure that is copied to the end of the values. -/
theorem goal_struct {m : Mem} {i : Nat} {v : Val} {s : Nat} (h1 : 1 ≤ s)
    (he : ∀ p w d e, ∀ r, Ev (fun N => if p then copyStruct m (member m N true) ⟨.stem, i⟩ e (d.put w (iPointer e)) else copyStruct m (member m N true) ⟨.stem, i⟩ w d) r →
      Ev (fun N => member m N p ⟨.stem, i⟩ w d e) r)
    (hs : ∀ e d, Clear d e → Has m d → e + s ≤ 4096 → ∃ d', Ev (fun N => copyStruct m (member m N true) ⟨.stem, i⟩ e d) (d', e + s) ∧
      Put d d' e (e + s) (fun _ => False) ∧ Stands m d' false e v) : Goal m false i v s := by
  refine ⟨fun w d e hw hd hc hm hle => ?_, fun w d hc hm hle => ?_⟩
  · have le1 : Le d (d.put w (iPointer e)) := Le.put hd
    obtain ⟨d', a, b, v', c1, c2⟩ := hs e (d.put w (iPointer e)) (fun j hj => by rw [put_other (by omega)]; exact hc j hj) (hm.le le1) hle
    have hp : d'.code w = some (iPointer e) := b.le.code put_self
    refine ⟨d', he true w d e _ a, ⟨le1.trans b.le, fun j hj hn => ?_, b.clear, b.full, fun j hj => ?_⟩, v', den_iptr ?_ c1, c2⟩
    · rw [b.same j hj id, put_other hn]
    · subst hj; rw [hp]; rfl
    · rw [show (over m d').at ⟨.val, w⟩ = some (kind (iPointer e)) from at_of_word hp, kind_iPointer (by omega)]
  · rw [show max 1 s = s from by omega] at hle ⊢
    obtain ⟨d', a, b, c⟩ := hs w d hc hm hle
    exact ⟨d', he false w d (w + 1) _ a, b, c⟩

theorem ev_each {F : Nat → Nat → Dest → Nat → Option (Dest × Nat)} {i n : Nat} {d : Dest} {e : Nat} {r1 r : Dest × Nat}
    (h1 : Ev (fun N => F N i d e) r1) (h2 : Ev (fun N => each (F N) (i + 1) n r1.1 r1.2) r) : Ev (fun N => each (F N) i (n + 1) d e) r :=
  (Ev.bind (g := fun N x => each (F N) (i + 1) n x.1 x.2) h1 h2).of fun _ => rfl

/-- A structure whose members are copied is copied. -/
theorem copy_struct {m : Mem} {i : Nat} {h : Word} {n s : Nat} {ks : Val} (hw : m.word ⟨.stem, i⟩ = some h) (hk : kind h = .struct n) (hn : ks.length = n)
    (hg : Goal m true (i + 1) ks s) (e : Nat) (d : Dest) (hc : Clear d e) (hm : Has m d) (hle : e + (1 + n + s) ≤ 4096) :
    ∃ d', Ev (fun N => copyStruct m (member m N true) ⟨.stem, i⟩ e d) (d', e + (1 + n + s)) ∧
      Put d d' e (e + (1 + n + s)) (fun _ => False) ∧ Stands m d' false e (.node none h ks) := by
  have hcnt := kind_struct_count (Or.inl hk)
  have none_e : d.code e = none := hc e (Nat.le_refl e)
  have le1 : Le d (d.put e h) := Le.put none_e
  obtain ⟨d', e1, pt, v', c1, c2⟩ := hg i 1 rfl e (d.put e h) (e + 1 + n) (by omega)
    (fun j h1 h2 => by rw [put_other (by omega)]; exact hc j (by omega))
    (fun j hj => by rw [put_other (by omega)]; exact hc j (by omega)) (hm.le le1) (by omega)
  have he : d'.code e = some h := pt.le.code put_self
  refine ⟨d', ?_, ⟨le1.trans pt.le, fun j hj _ => ?_, fun j hj => pt.clear j (by omega), fun j h1 h2 => ?_, fun _ h => h.elim⟩, .node none h v', ?_, rfl, rfl, c2⟩
  · rw [hn] at e1
    rw [show e + (1 + n + s) = e + 1 + n + s from by omega]
    refine e1.of fun N => ?_
    simp only [copyStruct, hw, Option.bind_some, hk, hcnt]
  · rw [pt.same j (by omega) (by omega), put_other (by omega)]
  · by_cases h0 : j = e
    · subst h0; rw [he]; rfl
    · by_cases h3 : j < e + 1 + n
      · exact pt.got j ⟨by omega, by omega⟩
      · exact pt.full j (by omega) (by omega)
  · exact .node (d := ⟨.val, e⟩) (n := n) (.here ⟨_, at_of_word (w := h) he, by rw [hk]; rfl⟩) he hk c1 (by rw [← alike_length c2]; exact hn)

theorem each_string {m : Mem} {c : Ctx} {w N : Nat} (ws : List Word) : ∀ (i : Nat) (d : Dest) (e : Nat), wordsAt m c i ws.length = some ws →
    (∀ x ∈ ws, kind x = .atom) →
    each (fun i d e => member m (N + 1) true (c.child i) (w + i) d e) i ws.length d e = each (verbatim m c w) i ws.length d e := by
  induction ws with
  | nil => intro i d e _ _; rfl
  | cons x xs ih =>
    intro i d e h ha
    simp only [List.length_cons, wordsAt] at h
    obtain ⟨y, hy, h⟩ := Option.bind_eq_some_iff.mp h
    obtain ⟨ys, hys, he⟩ := Option.map_eq_some_iff.mp h
    cases he
    have : member m (N + 1) true (c.child i) (w + i) d e = some (d.put (w + i) x, e) := by
      simp only [member, hy, Option.bind_some, ha x (by simp)]
    simp only [List.length_cons, each, this, verbatim, hy, Option.map_some, Option.bind_some]
    exact ih (i + 1) _ _ hys fun z hz => ha z (by simp [hz])

theorem words_val {m : Mem} {k : Nat} (ws : List Word) : ∀ (j : Nat), (∀ i, i < ws.length → m.values (k + j + i) = ws[i]?) →
    wordsAt m ⟨.val, k⟩ j ws.length = some ws := by
  induction ws with
  | nil => intro j _; rfl
  | cons w ws ih =>
    intro j h
    have h0 := h 0 (by simp)
    have := ih (j + 1) fun i hi => by
      have := h (i + 1) (by simpa using hi)
      rw [show k + (j + 1) + i = k + j + (i + 1) from by omega, this]; rfl
    show (m.values (k + j)).bind _ = _
    rw [show k + j = k + j + 0 from rfl, h0]
    simp [this]

theorem copy_raw {m : Mem} {i : Nat} {h : Word} {n : Nat} {ws : List Word} (hw : m.word ⟨.stem, i⟩ = some h) (hk : kind h = .raw n)
    (hws : wordsAt m ⟨.stem, i⟩ 1 n = some ws) (ht : h.toNat / 16777216 = 0xC6 → ∀ w ∈ ws, kind w = .atom) (e : Nat) (d : Dest) (hc : Clear d e) :
    ∃ d', Ev (fun N => copyStruct m (member m N true) ⟨.stem, i⟩ e d) (d', e + (1 + n)) ∧
      Put d d' e (e + (1 + n)) (fun _ => False) ∧ Stands m d' false e (.raw h ws) := by
  have hl := wordsAt_length hws
  subst hl
  have hcnt := kind_struct_count (Or.inr hk)
  obtain ⟨d', h1, h2, h3, h4⟩ := each_verbatim (w := e) ws 1 (d.put e h) (e + 1 + ws.length) hws
  have he : d'.code e = some h := by rw [h4 e (by omega)]; exact put_self
  refine ⟨d', Ev.succ (Ev.const fun N => ?_), ⟨⟨fun {i x} hx => ?_, fun {i x} hx => ?_⟩, fun j hj _ => ?_, fun j hj => ?_, fun j ha hb => ?_, fun _ h => h.elim⟩, .raw h ws, ?_, rfl, rfl⟩
  · simp only [copyStruct, hw, Option.bind_some, hk, hcnt]
    by_cases hs : h.toNat / 16777216 = 0xC6
    · rw [if_pos hs, each_string ws 1 _ _ hws (ht hs), h1, show e + 1 + ws.length = e + (1 + ws.length) from by omega]
    · rw [if_neg hs, h1, show e + 1 + ws.length = e + (1 + ws.length) from by omega]
  · have : i < e := by
      refine Nat.lt_of_not_le fun hi => ?_
      rw [hc i hi] at hx
      cases hx
    rw [h4 i (by omega), put_other (by omega)]
    exact hx
  · rw [h2]; exact hx
  · rw [h4 j (by omega), put_other (by omega)]
  · rw [h4 j (by omega), put_other (by omega)]
    exact hc j (by omega)
  · by_cases h0 : j = e
    · subst h0; rw [he]; rfl
    · have := h3 (j - e - 1) (by omega)
      rw [show e + 1 + (j - e - 1) = j from by omega] at this
      rw [this, List.getElem?_eq_getElem (by omega)]; rfl
  · exact .raw (d := ⟨.val, e⟩) (.here ⟨_, at_of_word (w := h) he, by rw [hk]; rfl⟩) he hk rfl (words_val ws 1 h3)

theorem kindOf_value {d k a n j : Nat} (h : kindOf d k a n = .value j) : k = j := by
  unfold kindOf at h
  repeat' (replace h := ite_split h; rcases h with ⟨_, h⟩ | ⟨_, h⟩)
  all_goals first
    | (exfalso; exact Kind.noConfusion h)
    | (cases h; rfl)

theorem kind_value {a : Word} {k : Nat} (h : kind a = .value k) : k < 4096 := by
  have := kindOf_value h
  have h2 := asIndex_toNat a
  omega

/-- If there are chains of pointers, variables stand for members. -/
def Neat (m : Mem) : Prop := ∀ i n, m.at ⟨.stem, i⟩ = some (.cptr n) → m.tidy

theorem fair_goal {m : Mem} (ht : Neat m) {b i v s} (h : Fair m b i v s) : Goal m b i v s := by
  induction h with
  | @jump i k v s h _ ih =>
    have step : ∀ N p w d e, member m (N + 1) p ⟨.stem, i⟩ w d e = member m N p ⟨.stem, k⟩ w d e := fun N p w d e => by
      rcases h with h | h <;> obtain ⟨a, ha, hk⟩ := Option.map_eq_some_iff.mp h <;> simp only [member, ha, Option.bind_some, hk]
    refine ⟨fun w d e h1 h2 h3 h4 h5 => ?_, fun w d h1 h2 h3 => ?_⟩
    · obtain ⟨d', x, y⟩ := ih.1 w d e h1 h2 h3 h4 h5
      exact ⟨d', Ev.succ (x.of fun N => step N _ _ _ _), y⟩
    · obtain ⟨d', x, y⟩ := ih.2 w d h1 h2 h3
      exact ⟨d', Ev.succ (x.of fun N => step N _ _ _ _), y⟩
  | @value i k v h hf hd =>
    obtain ⟨a, ha, hk⟩ := Option.map_eq_some_iff.mp h
    refine goal_one (x := iPointer k) (fun p w d e => Ev.succ (Ev.const fun N => by simp only [member, ha, Option.bind_some, hk])) fun w d hm hw => ?_
    refine ⟨v, den_iptr ?_ ((grow_over hm).den hd (by simp)), alike_refl v⟩
    rw [show (over m d).at ⟨.val, w⟩ = some (kind (iPointer k)) from at_of_word hw, kind_iPointer (kind_value hk)]
  | @moved i k v h hp hd =>
    obtain ⟨a, ha, hk⟩ := Option.map_eq_some_iff.mp h
    refine goal_one (x := a) (fun p w d e => Ev.succ (Ev.const fun N => ?_)) fun w d hm hw => ?_
    · simp only [member, ha, Option.bind_some, hk]
      cases k <;> first | rfl | cases hp
    · exact ⟨v, den_moved (grow_over hm) h hp (by rw [← hk]; exact at_of_word hw) hd, alike_refl v⟩
  | @atom i a ha hk =>
    refine goal_one (x := a) (fun p w d e => Ev.succ (Ev.const fun N => ?_)) fun w d hm hw => ?_
    · rcases hk with hk | hk <;> simp only [member, ha, Option.bind_some, hk]
    · exact ⟨.atom ⟨.val, w⟩ a, .atom (.here (fin_of (a := a) hw hk)) hw hk rfl, rfl⟩
  | @cptr i n q a h g hw hk hd =>
    obtain ⟨b, hb, hkb⟩ := Option.map_eq_some_iff.mp h
    refine goal_one (x := a) (fun p w d e => Ev.succ ?_) fun w d hm hw => ?_
    · refine (Ev.bind (f := fun N => deref m N ⟨.stem, i⟩) (g := fun _ q => (m.word q).map fun x => (d.put w x, e)) (go_deref' (ht i n h) g)
        (Ev.const fun N => by simp [hw])).of fun N => ?_
      simp only [member, hb, Option.bind_some, hkb]
    · exact ⟨.atom ⟨.val, w⟩ a, .atom (.here (fin_of (a := a) hw hk)) hw hk rfl, rfl⟩
  | @raw i h n ws hw hk hws hs =>
    refine goal_struct (by omega) (fun p w d e r hr => Ev.succ (hr.of fun N => ?_)) fun e d hc hm hle => copy_raw hw hk hws hs e d hc
    simp only [member, hw, Option.bind_some, hk]
  | @node i h n ks s hw hk _ hl ih =>
    refine goal_struct (by omega) (fun p w d e r hr => Ev.succ (hr.of fun N => ?_)) fun e d hc hm hle => copy_struct hw hk hl ih e d hc hm hle
    simp only [member, hw, Option.bind_some, hk]
  | nil =>
    intro i0 j _ w d e _ _ hc _ _
    exact ⟨d, Ev.const fun N => rfl, ⟨Le.rfl, fun _ _ _ => rfl, hc, fun j h1 h2 => absurd h2 (by omega),
      fun l hl => absurd hl.2 (by simp only [Val.length]; omega)⟩, .nil, .nil, trivial⟩
  | @cons i v vs s t _ _ ih1 ih2 =>
    intro i0 j hj w d e hle hno hc hm hsz
    subst hj
    simp only [Val.length] at hle hno ⊢
    obtain ⟨d1, e1, p1, t1⟩ := ih1.1 (w + j) d e (by omega) (hno _ (by omega) (by omega)) hc hm (by omega)
    obtain ⟨d2, e2, p2, t2⟩ := ih2 i0 (j + 1) rfl w d1 (e + s) (by omega)
      (fun l hl hl' => by rw [p1.same l (by omega) (by omega)]; exact hno l (by omega) (by omega)) p1.clear (hm.le p1.le) (by omega)
    refine ⟨d2, ?_, ⟨p1.le.trans p2.le, fun l hl hn => ?_, ?_, fun l h1 h2 => ?_, fun l hl => ?_⟩, ?_⟩
    · rw [← Nat.add_assoc]
      exact ev_each (F := fun N i d e => member m N true (Ctx.child ⟨.stem, i0⟩ i) (w + i) d e) e1 e2
    · rw [p2.same l (by omega) (by omega), p1.same l hl (by omega)]
    · rw [← Nat.add_assoc]; exact p2.clear
    · by_cases h3 : l < e + s
      · obtain ⟨x, hx⟩ := Option.isSome_iff_exists.mp (p1.full l h1 h3)
        rw [p2.le.code hx]; rfl
      · exact p2.full l (by omega) (by omega)
    · by_cases h3 : l = w + j
      · obtain ⟨x, hx⟩ := Option.isSome_iff_exists.mp (p1.got l h3)
        rw [p2.le.code hx]; rfl
      · exact p2.got l ⟨by omega, by omega⟩
    · obtain ⟨a, ha, hb⟩ := t1.le p2.le
      obtain ⟨b, hc', hd⟩ := t2
      exact ⟨.cons a b, .cons ha hc', hb, hd⟩

end Verif.Keep
