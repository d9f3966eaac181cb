import Verif.Keep.Lemmas
/-!
# What red produces (C166)
-/
namespace Verif.Keep
open Verif.Ctx
open Verif.Atom hiding Val

/-- The productions can be kept, and the pointers to them can be written. -/
def Fit : Mem → Nat → List Step → List Val → Prop
  | _, _, [], vs => vs = []
  | m, nv, s :: ss, vs => ∃ v us z, vs = v :: us ∧
      (∃ w, s.stem s.cell = some w ∧ isStructural w = false) ∧
      Neat (prepare m nv s) ∧ Fair (prepare m nv s) false s.cell v z ∧ nv + s.values.length + max 1 z ≤ 4096 ∧
      ∀ r : Dest × Nat, Ev (fun n => keep (prepare m nv s) n (nv + s.values.length) ⟨.stem, s.cell⟩) r →
        Fit { prepare m nv s with values := r.1.code } r.2 ss us

theorem Fit.worth : ∀ (ss : List Step) (m : Mem) (nv : Nat) (vs : List Val), Fit m nv ss vs → Worth m nv ss vs
  | [], _, _, _, h => h
  | _ :: ss, _, _, _, ⟨v, us, _, h1, h2, _, h4, _, h6⟩ => ⟨v, us, h1, h2, h4.den, fun r hr => Fit.worth ss _ _ _ (h6 r hr)⟩

theorem ends_extend {v : Nat → Option Word} {nv : Nat} (h : Ends v nv) (ws : List Word) : Ends (extend v nv ws) (nv + ws.length) := fun i => by
  unfold extend
  by_cases hi : i < nv
  · rw [if_pos hi]
    exact ⟨fun _ => by omega, fun _ => (h i).mpr hi⟩
  · rw [if_neg hi]
    constructor
    · intro hs
      obtain ⟨x, hx⟩ := Option.isSome_iff_exists.mp hs
      have := (List.getElem?_eq_some_iff.mp hx).1
      omega
    · intro hs
      rw [List.getElem?_eq_getElem (by omega)]; rfl

theorem Ends.lt {v : Nat → Option Word} {nv : Nat} (h : Ends v nv) {i : Nat} {x : Word} (hx : v i = some x) : i < nv := (h i).mp (by rw [hx]; rfl)

theorem Ends.none {v : Nat → Option Word} {nv : Nat} (h : Ends v nv) {i : Nat} (hi : nv ≤ i) : v i = none := by
  cases hx : v i with
  | none => rfl
  | some x => exact absurd (h.lt hx) (by omega)

theorem grow_extend {m : Mem} {nv : Nat} (h : Ends m.values nv) (ws : List Word) : Grow m { m with values := extend m.values nv ws } :=
  ⟨rfl, rfl, rfl, rfl, fun {i x} hx => by simp only [extend]; rw [if_pos (h.lt hx)]; exact hx, id⟩

theorem grow_prepare {m : Mem} {nv : Nat} (h : Ends m.values nv) (s : Step) : Grow m (prepare m nv s) :=
  ⟨rfl, rfl, rfl, rfl, fun {i x} hx => by simp only [prepare, extend]; rw [if_pos (h.lt hx)]; exact hx,
    fun {i x} hx => by
      have := (List.getElem?_eq_some_iff.mp hx).1
      simp only [prepare]
      rw [List.getElem?_append_left this]; exact hx⟩

/-- One production. -/
theorem keep_one {m : Mem} (ht : Neat m) {nv i : Nat} {v : Val} {z : Nat} (he : Ends m.values nv) (hw : ∃ w, m.stem i = some w ∧ isStructural w = false)
    (hf : Fair m false i v z) (hz : nv + max 1 z ≤ 4096) :
    ∃ r : Dest × Nat, Ev (fun n => keep m n nv ⟨.stem, i⟩) r ∧ nv ≤ r.2 ∧ Ends r.1.code r.2 ∧ Grow m (over m r.1) ∧ Stands m r.1 false nv v := by
  obtain ⟨a, ha, hs⟩ := hw
  have hm : Has m ⟨m.values, []⟩ := id
  obtain ⟨d, e1, p, st⟩ := (fair_goal ht hf).2 nv ⟨m.values, []⟩ (fun j hj => he.none hj) hm hz
  refine ⟨(d, nv + max 1 z), e1.of fun N => ?_, by simp, fun j => ?_, grow_over (hm.le p.le), st⟩
  · have : m.word ⟨.stem, i⟩ = some a := ha
    simp only [keep, this, Option.bind_some, hs, Bool.false_eq_true, if_false]
  · constructor
    · intro hj
      refine Nat.lt_of_not_le fun h => ?_
      rw [p.clear j h] at hj
      cases hj
    · intro hj
      by_cases h : j < nv
      · rw [p.same j h id]; exact (he j).mpr h
      · exact p.full j (by omega) hj

theorem kept (ss : List Step) : ∀ (m : Mem) (nv : Nat) (vs : List Val), Ends m.values nv → Fit m nv ss vs →
    ∃ (M : Mem) (n : Nat) (ps : List Nat), Ev (fun N => run N m nv ss) (M, n, ps) ∧ Ends M.values n ∧ Grow m M ∧ ps.length = vs.length ∧
      ∀ i (h : i < ps.length) (h' : i < vs.length), ps[i] < 4096 ∧ ∃ v', Den M false ⟨.val, ps[i]⟩ v' ∧ alike vs[i] v' := by
  induction ss with
  | nil =>
    intro m nv vs he hf
    cases hf
    exact ⟨m, nv, [], Ev.const fun _ => rfl, he, ⟨rfl, rfl, rfl, rfl, id, id⟩, rfl, fun i h => absurd h (by simp)⟩
  | cons s ss ih =>
    intro m nv vs he ⟨v, us, z, hv, hw, ht, hf, hz, hr⟩
    subst hv
    have he1 : Ends (prepare m nv s).values (nv + s.values.length) := ends_extend he s.values
    obtain ⟨r, e1, hle, he2, g1, v', hd, ha⟩ := keep_one ht he1 hw hf hz
    obtain ⟨M, n, ps, e2, he3, g2, hl, hall⟩ := ih _ _ us he2 (hr r e1)
    refine ⟨M, n, (nv + s.values.length) :: ps, ?_, he3, (grow_prepare he s).trans (g1.trans g2), by simp [hl], fun i h h' => ?_⟩
    · refine (Ev.bind (f := fun N => keep (prepare m nv s) N (nv + s.values.length) ⟨.stem, s.cell⟩)
        (g := fun N r => (run N { prepare m nv s with values := r.1.code } r.2 ss).map fun t => (t.1, t.2.1, (nv + s.values.length) :: t.2.2)) e1 ?_).of fun N => rfl
      obtain ⟨k, hk⟩ := e2
      exact ⟨k, fun N hN => congrArg (Option.map fun t : Mem × Nat × List Nat => (t.1, t.2.1, (nv + s.values.length) :: t.2.2)) (hk N hN)⟩
    · cases i with
      | zero => exact ⟨by simp; omega, v', g2.den hd (by simp), ha⟩
      | succ i => exact hall i (by simpa using h) (by simpa using h')

theorem den_list {M : Mem} {k : Nat} (ps : List Nat) : ∀ (vs : List Val) (j : Nat), ps.length = vs.length →
    (∀ i (h : i < ps.length), M.values (k + j + i) = some (iPointer (ps[i] : Nat))) →
    (∀ i (h : i < ps.length) (h' : i < vs.length), ps[i] < 4096 ∧ ∃ v', Den M false ⟨.val, ps[i]⟩ v' ∧ alike vs[i] v') →
    ∃ us, Den M true ⟨.val, k + j⟩ us ∧ alike (list vs) us := by
  induction ps with
  | nil =>
    intro vs j hl _ _
    cases vs with
    | nil => exact ⟨.nil, .nil, trivial⟩
    | cons => cases hl
  | cons p ps ih =>
    intro vs j hl hw hd
    cases vs with
    | nil => cases hl
    | cons v vs =>
      obtain ⟨hp, v', h1, h2⟩ := hd 0 (by simp) (by simp)
      obtain ⟨us, h3, h4⟩ := ih vs (j + 1) (by simpa using hl)
        (fun i h => by
          have := hw (i + 1) (by simpa using h)
          rw [show k + (j + 1) + i = k + j + (i + 1) from by omega, this]; rfl)
        (fun i h h' => hd (i + 1) (by simpa using h) (by simpa using h'))
      refine ⟨.cons v' us, .cons (den_iptr ?_ h1) h3, h2, h4⟩
      have h0 : M.values (k + j) = some (iPointer (p : Nat)) := hw 0 (by simp)
      rw [show M.at ⟨.val, k + j⟩ = some (kind (iPointer (p : Nat))) from at_of_word h0]
      exact congrArg some (kind_iPointer hp)

theorem list_length (vs : List Val) : (list vs).length = vs.length := by
  induction vs with
  | nil => rfl
  | cons v vs ih => simp [list, Val.length, ih]

theorem set_word {n : Nat} (h : n < 256) : Atom.set (BitVec.ofNat 8 n) = BitVec.ofNat 32 (0xC1000000 + n) := by
  have : ∀ n : Fin 256, Atom.set (BitVec.ofNat 8 n.val) = BitVec.ofNat 32 (0xC1000000 + n.val) := by decide +kernel
  exact this ⟨n, h⟩

theorem set_kind {n : Nat} (h : n < 256) : kind (BitVec.ofNat 32 (0xC1000000 + n)) = .struct n := by
  have : ∀ n : Fin 256, kind (BitVec.ofNat 32 (0xC1000000 + n.val)) = .struct n.val := by decide +kernel
  exact this ⟨n, h⟩

/-- C166 in part: red makes the set of what the productions stood for, each with its input, in order,
whatever then happens to the code of the program, if there are fewer than 256 productions, if the values take
no more than 4096 words, if the productions are made of atoms, timestamps, durations, strings whose words look
like atoms, structures, values of operators, objects, parts of arguments and of inputs, and chains
of pointers to atoms. What is missing: parts of objects that inputs refer to; chains of pointers to anything but
atoms; larger sets and arrays. -/
theorem C166_red_partial (m : Mem) (nv : Nat) (ss : List Step) (vs : List Val) (he : Ends m.values nv) (hf : Fit m nv ss vs) (hl : vs.length < 256) :
    Worth m nv ss vs ∧ ∃ r : Mem × Nat, Ev (fun n => red n m nv ss) r ∧
      ∀ stem, ∃ us, Den { r.1 with stem := stem } false ⟨.val, r.2⟩ (.node none (BitVec.ofNat 32 (0xC1000000 + vs.length)) us) ∧ alike (list vs) us := by
  refine ⟨hf.worth, ?_⟩
  obtain ⟨M, n, ps, ⟨k, hk⟩, he', g, hpl, hall⟩ := kept ss m nv vs he hf
  refine ⟨_, ⟨k, fun N hN => by simp only [red, hk N hN, Option.map_some]; rfl⟩, fun stem => ?_⟩
  have g2 := (grow_extend he' (Atom.set (BitVec.ofNat 8 ps.length) :: ps.map fun (p : Nat) => iPointer p)).trans (Grow.stem _ stem)
  have hword : ∀ i, extend M.values n (Atom.set (BitVec.ofNat 8 ps.length) :: ps.map fun (p : Nat) => iPointer p) (n + i) =
      (Atom.set (BitVec.ofNat 8 ps.length) :: ps.map fun (p : Nat) => iPointer p)[i]? := fun i => by
    simp only [extend]
    rw [if_neg (by omega), show n + i - n = i from by omega]
  obtain ⟨us, hu, ha⟩ := den_list (k := n) ps vs 1 hpl
    (M := { M with values := extend M.values n (Atom.set (BitVec.ofNat 8 ps.length) :: ps.map fun (p : Nat) => iPointer p), stem := stem })
    (fun i h => by
      show extend M.values n _ (n + 1 + i) = _
      rw [show n + 1 + i = n + (1 + i) from by omega, hword, show 1 + i = i + 1 from by omega, List.getElem?_cons_succ, List.getElem?_map, List.getElem?_eq_getElem h]
      rfl)
    (fun i h h' => by
      obtain ⟨hp, v', h1, h2⟩ := hall i h h'
      exact ⟨hp, v', g2.den h1 (by simp), h2⟩)
  refine ⟨us, ?_, ha⟩
  have h0 : extend M.values n (Atom.set (BitVec.ofNat 8 ps.length) :: ps.map fun (p : Nat) => iPointer p) n = some (BitVec.ofNat 32 (0xC1000000 + vs.length)) := by
    have := hword 0
    rw [← hpl]
    rw [show n + 0 = n from rfl] at this
    rw [this, List.getElem?_cons_zero, set_word (by omega)]
  exact .node (d := ⟨.val, n⟩) (n := vs.length) (.here ⟨_, at_of_word (w := BitVec.ofNat 32 (0xC1000000 + vs.length)) h0, by rw [set_kind hl]; rfl⟩) h0 (set_kind hl) hu
    (by rw [← alike_length ha, list_length])

/-! ## What goes wrong -/

/-- An input that refers to an object with a member; the variable at 1 stands for that member, the one at 9 for
the object. -/
def partMem : Mem :=
  { objs := fun o =>
      if o = 5 then ⟨fun i => [0xC3000101#32, 0x85000000#32][i]?, [6]⟩
      else if o = 6 then ⟨fun i => [0xC3000201#32, 3#32][i]?, []⟩
      else ⟨fun _ => none, []⟩
    stem := fun _ => none, values := fun _ => none, pgm := 4, ipgm := 3, inputs := [5], prods := [] }

def partStep : Step :=
  { stem := fun i => [0x8E000001#32, 0x8C009001#32, 0#32, 0#32, 0#32, 0#32, 0#32, 0#32, 0#32, 0x88000001#32][i]?, values := [], prods := [], cell := 0 }

theorem part_den : Den (prepare partMem 0 partStep) false ⟨.stem, 0⟩ (.atom ⟨.obj 6, 1⟩ 3#32) := by
  refine .atom ?_ rfl (Or.inl (by decide)) rfl
  refine .codevl (k := 1) (by decide) (.dinobj (r := 9) (k := 1) (p := ⟨.obj 6, 0⟩) (by decide) ?_ (.here (fin (k := .atom) (by decide) rfl)))
  exact .inobj (a := 0) (k := 1) (o := 5) (by decide) rfl (.rptr (k := 0) (o := 6) (by decide) rfl (fin (k := .struct 1) (by decide) rfl))

def partRes : Mem × Nat := (red 9 partMem 0 [partStep]).getD (partMem, 0)

theorem part_run (N : Nat) : red (N + 2) partMem 0 [partStep] = some partRes := rfl

theorem go_only {m : Mem} {c d : Ctx} {k : Kind} (h : m.at c = some k) (hg : Go m c [] d) :
    (k = .iptr 0 → Go m ⟨c.sp, 0⟩ [] d) ∧ (∀ r j, k = .dinobj r j → ∃ p, Go m ⟨c.sp, r⟩ [] p) := by
  generalize hl : ([] : List Nat) = l at hg
  cases hg with
  | walk => cases hl
  | iptr e g =>
    rw [h] at e; cases e
    exact ⟨(fun e => by cases e; exact g), (fun r j e => by cases e)⟩
  | dinobj e g =>
    rw [h] at e; cases e
    exact ⟨(fun e => by cases e), (fun r j e => by cases e; exact ⟨_, g⟩)⟩
  | here hf =>
    obtain ⟨k', h1, h2⟩ := hf
    rw [h] at h1; cases h1
    exact ⟨(fun e => by subst e; cases h2), (fun r j e => by subst e; cases h2)⟩
  | rptr e | ipgm e | inobj e | value e | prod e | codevl e | this e | cptr e =>
    rw [h] at e; cases e
    exact ⟨(fun e => by cases e), (fun r j e => by cases e)⟩

theorem go_none {m : Mem} {c d : Ctx} (h : m.at c = none) (hg : Go m c [] d) : False := by
  generalize hl : ([] : List Nat) = l at hg
  cases hg with
  | walk => cases hl
  | here hf => obtain ⟨k', h1, h2⟩ := hf; rw [h] at h1; cases h1
  | iptr e | dinobj e | rptr e | ipgm e | inobj e | value e | prod e | codevl e | this e | cptr e => rw [h] at e; cases e

/-- A chain of pointers to a timestamp of the input. -/
def chainMem : Mem :=
  { objs := fun _ => ⟨fun i => [0xC3000101#32, 0x84000002#32, 0xC7000000#32, 6#32, 77#32][i]?, []⟩
    stem := fun i => [0x84000001#32, 0xC0000002#32, 0x88000000#32, 0x84000001#32][i]?
    values := fun _ => none, pgm := 4, ipgm := 3, inputs := [5], prods := [] }

/-- C166 is violated: a variable that stands for a part of an object the input refers to is copied as a
pointer relative to the code of the program, and then read relative to the values. Also, of a timestamp
that is reached by a chain of pointers, only the head is copied; and the set of 256 productions is
empty. -/
theorem C166_red_violated : ¬ C166_full ∧
    (∀ N, (keep chainMem (N + 6) 0 ⟨.stem, 0⟩).map (fun r => (r.1.code 0, r.2)) = some (some 0xC7000000#32, 1)) ∧
    ((red 2 partMem 0 (List.replicate 256 { partStep with stem := fun _ => some 7#32 })).map fun r => r.1.values r.2) = some (some 0xC1000000#32) := by
  refine ⟨fun h => ?_, fun N => rfl, by decide +kernel⟩
  obtain ⟨r, ⟨k, hk⟩, hr⟩ := h partMem 0 [partStep] [.atom ⟨.obj 6, 1⟩ 3#32] (fun i => ⟨(fun h => by cases h), (fun h => by omega)⟩)
    ⟨_, [], rfl, ⟨_, rfl, by decide⟩, part_den, fun _ _ => rfl⟩
  have h1 := hk (k + 2) (by omega)
  simp only [part_run] at h1
  cases h1
  obtain ⟨us, hd, ha⟩ := hr (fun _ => none)
  generalize hid : (none : Option Nat) = i at hd
  cases hd with
  | @node _ x _ n _ g w1 k1 kids hl =>
    have hx : x = ⟨.val, 1⟩ := go_here (fin (k := .struct 1) (by decide) rfl) g
    subst hx
    cases kids with
    | nil => exact ha
    | @cons _ v vs kv _ =>
      have key : ∀ {d}, Go { partRes.1 with stem := fun _ => none } ⟨.val, 2⟩ [] d → False := fun g => by
        have g0 := (go_only (k := .iptr 0) (by decide) g).1 rfl
        obtain ⟨p, g1⟩ := (go_only (k := .dinobj 9 1) (by decide) g0).2 9 1 rfl
        exact go_none (by decide) g1
      cases kv with
      | atom g => exact key g
      | raw g => exact key g
      | node g => exact key g

/-! ## A sample -/

/-- A production with the value of an operator (a duration), an object the program refers to, the timestamp of the
input, and an atom; then, for another input, the input itself. -/
def first : Step :=
  { stem := fun i => [0x84000001#32, 0xC3000104#32, 0x89000000#32, 0x85000000#32, 0x8E000006#32, 7#32, 0x88000001#32][i]?
    values := [0xD0000000#32, 0#32, 5#32], prods := [], cell := 0 }

def second : Step :=
  { stem := fun i => [0x8E000001#32, 0x8A000000#32][i]?, values := [], prods := [6], cell := 0 }

def firstVal : Val := .node none 0xC3000104#32 (.cons (.raw 0xD0000000#32 [0#32, 5#32]) (.cons entity
  (.cons (.raw 0xC7000000#32 [6#32, 77#32]) (.cons (.atom ⟨.stem, 5⟩ 7#32) .nil))))

theorem first_fair : Fair (prepare sample 0 first) false 0 firstVal 5 := by
  refine .jump (k := 1) (Or.inl (by decide)) (.node (n := 4) (s := 0) rfl (by decide) (.cons (s := 0) (t := 0) ?_ (.cons (s := 0) (t := 0) ?_ (.cons (s := 0) (t := 0) ?_ (.cons (s := 0) (t := 0) ?_ .nil)))) rfl)
  · exact .value (k := 0) (by decide) (fin (k := .raw 2) (by decide) rfl) (.raw (d := ⟨.val, 0⟩) (n := 2) (.here (fin (k := .raw 2) (by decide) rfl)) rfl (by decide) rfl rfl)
  · refine .moved (k := .rptr 0) (by decide) rfl (.node (d := ⟨.obj 6, 0⟩) (n := 1) ?_ rfl (by decide) (.cons (.atom (.here (fin (k := .atom) (by decide) rfl)) rfl (by decide) rfl) .nil) rfl)
    exact .rptr (k := 0) (o := 6) (by decide) rfl (fin (k := .struct 1) (by decide) rfl)
  · refine .jump (k := 6) (Or.inr (by decide)) (.moved (k := .inobj 0 1) (by decide) rfl (.raw (d := ⟨.obj 5, 4⟩) (n := 2) ?_ rfl (by decide) rfl rfl))
    exact .inobj (a := 0) (k := 1) (o := 5) (by decide) rfl (.iptr (k := 4) (by decide) (.here (fin (k := .raw 2) (by decide) rfl)))
  · exact .atom rfl (by decide)

theorem neat_list {m : Mem} (l : List Word) (h : m.stem = fun i => l[i]?) (hl : (l.all fun w => match kind w with | .cptr _ => false | _ => true) = true) : Neat m := fun i n hi => by
  have : ((l[i]?).map kind) = some (.cptr n) := by
    have e : m.at ⟨.stem, i⟩ = (m.stem i).map kind := rfl
    rw [e, h] at hi; exact hi
  obtain ⟨w, hw, he⟩ := Option.map_eq_some_iff.mp this
  have := List.all_eq_true.mp hl w (List.mem_of_getElem? hw)
  rw [he] at this
  cases this

theorem C166_nonvacuous : Ends sample.values 0 ∧ Fit sample 0 [first, second] [firstVal, entity] ∧
    (red 9 sample 0 [first, second]).map (fun r => r.2) = some 9 ∧
    (red 9 sample 0 [first, second]).map (fun r => (List.range 13).map fun i => r.1.values i) = some
      [some 0xD0000000#32, some 0#32, some 5#32, some 0xC3000104#32, some 0x84000000#32, some 0x85000000#32, some 0x88000001#32, some 7#32,
        some 0x8A000000#32, some 0xC1000002#32, some 0x84000003#32, some 0x84000008#32, none] := by
  refine ⟨fun i => ⟨(fun h => by cases h), (fun h => by omega)⟩, ⟨firstVal, [entity], 5, rfl, ⟨_, rfl, by decide⟩, ?_, first_fair, by decide, fun r hr => ?_⟩,
    by decide +kernel, by decide +kernel⟩
  · exact neat_list _ rfl (by decide)
  · refine ⟨entity, [], 0, rfl, ⟨_, rfl, by decide⟩, ?_, ?_, ?_, fun _ _ => rfl⟩
    · exact neat_list _ rfl (by decide)
    · refine .jump (k := 1) (Or.inr rfl) (.moved (k := .prod 0) rfl rfl (.node (d := ⟨.obj 6, 0⟩) (n := 1) ?_ rfl (by decide) (.cons (.atom (.here (fin (k := .atom) rfl rfl)) rfl (by decide) rfl) .nil) rfl))
      exact .prod (k := 0) (o := 6) rfl rfl (fin (k := .struct 1) rfl rfl)
    · obtain ⟨k, hk⟩ := hr
      have h1 := hk (k + 4) (by omega)
      have h2 : (keep (prepare sample 0 first) (k + 4) 3 ⟨.stem, 0⟩).map (fun r => r.2) = some 8 := rfl
      have h1' : keep (prepare sample 0 first) (k + 4) 3 ⟨.stem, 0⟩ = some r := h1
      rw [h1'] at h2
      have h4 : r.2 = 8 := by simpa using h2
      rw [h4]
      decide

end Verif.Keep
