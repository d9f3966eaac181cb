import Verif.Tcp.Lemmas
/-!
# Data received (C149)
-/
namespace Verif.Tcp
open Verif.Atom Verif.Observe Verif.Screen

/-- A value of a class other than a set. -/
def isClass (v : Var) : Bool :=
  match v.data with
  | .doubles _ => v.handle != "" && v.handle != "set"
  | .ints _ => v.handle != "" && v.handle != "set"
  | _ => false

/-- The fact as the device makes it: that of a value of a class holds at one instant only. -/
def made (E : Env) (ss : List Setup) (t : Int) (v : Var) : Option Seen :=
  (fact E ss t v).map fun f => if isClass v then { f with before := t } else f

/-- Variables of which the device makes facts: no truth values; the identifier of one known entity, or of none; one
text. -/
def Plain (s : Setup) (v : Var) : Prop :=
  match v.data with
  | .bools _ => False
  | .ids xs => xs = [-1] ∨ ∃ i n, xs = [i] ∧ i ≠ -1 ∧ (n, i) ∈ s.entities
  | .texts xs => xs.length = 1
  | _ => True

/-- C149 as far as it holds. -/
def C149_weak : Prop :=
  ∀ (E : Env) (s0 : Setup) (w0 w : World) (es : List Event) (t : Int) (vs : List Var) (q : List Msg),
    start E s0 = some w0 → run E w0 es = some w → Clear (setups s0 w) → NoSetup w → (∀ v ∈ vs, Plain s0 v) →
    w.queue = .data vs :: q → w.dev.last + (E.period * 8).tdiv 10 ≤ t →
    ∃ w', tick E w t = some w' ∧ w'.seen = w.seen ++ vs.filterMap (made E (setups s0 w) t)

theorem marker_eq (e p : Option Nat) (v : Observe.Val) (a b : Int) :
    marker e p v a b = (e.bind fun e => p.map fun p => (⟨e, p, v, a, b⟩ : Seen)).toList := by
  cases e with
  | none => rfl
  | some e => cases p <;> rfl

theorem numbers_eq (E : Env) (e p : Option Nat) (h : String) (xs : List (BitVec 32)) (t : Int) :
    numbers E e p h xs t = (e.bind fun e => p.bind fun p => (asValue E h (xs.map float)).map fun x =>
      (⟨e, p, x, t, if h != "" && h != "set" then t else t + E.period⟩ : Seen)).toList := by
  unfold numbers asValue
  by_cases h1 : h = ""
  · subst h1
    match xs with
    | [] => cases e <;> cases p <;> rfl
    | [x] => cases e <;> cases p <;> rfl
    | x :: y :: xs => cases e <;> cases p <;> rfl
  · by_cases h2 : h = "set"
    · subst h2
      cases e <;> cases p <;> rfl
    · have hb : (h != "" && h != "set") = true := by simp [h1, h2]
      rw [if_neg h1, if_neg h2, if_neg h1, if_neg h2, hb]
      cases E.opcode h with
      | none => cases e <;> cases p <;> rfl
      | some op => cases e <;> cases p <;> rfl

theorem entityOf_one (E : Env) (s : Setup) (i : Int) : entityOf E [s] i = (named s.entities i).bind E.find := by
  unfold entityOf; rw [List.flatMap_singleton]

theorem propertyOf_one (E : Env) (s : Setup) (i : Int) : propertyOf E [s] i = (named s.objects i).bind E.find := by
  unfold propertyOf; rw [List.flatMap_singleton]

/-- The entity of an identifier that is known. -/
theorem entityOf_known {E : Env} {s : Setup} {d : Dev} (hc : Clear [s]) (H : Knows E s d) {n : String} {i : Int}
    (h : (n, i) ∈ s.entities) : ∃ e, entityOf E [s] i = some e ∧ d.ids.get i = some n ∧
      d.entities.get n = some (some e) := by
  have hall : (n, i) ∈ s.all := mem_all.2 (.inl (.inl h))
  obtain ⟨h1, h2⟩ := H.entities.known n i h
  obtain ⟨e, he⟩ := Option.isSome_iff_exists.1 h2
  refine ⟨e, ?_, H.said n i hall, by rw [h1, he]⟩
  rw [entityOf_one]
  cases hn : named s.entities i with
  | none => exact absurd h (named_none hn n)
  | some n' =>
    have hm := named_mem hn
    have : n' = n := (hc.1 s (List.mem_singleton.2 rfl) s (List.mem_singleton.2 rfl) _
      (mem_all.2 (.inl (.inl hm))) _ hall).2 rfl
    rw [this]; exact he

theorem receive_plain {E : Env} {s : Setup} {d : Dev} (hc : Clear [s]) (H : Knows E s d) {v : Var} (hv : Plain s v)
    (t : Int) : ∃ d', receive E d v t = some (d', (made E [s] t v).toList) ∧ Knows E s d' := by
  have HK := receive_known H v
  refine ⟨_, ?_, HK⟩
  have he : (look d.ids d.entities v.entity).2.2 = entityOf E [s] v.entity := by
    rw [entityOf_one]
    exact look_eq hc (fun p hp => mem_all.2 (.inl (.inl hp))) ⟨H.said, H.heard⟩ H.entities _
  have hp : (look (look d.ids d.entities v.entity).1 d.objects v.prop).2.2 = propertyOf E [s] v.prop := by
    rw [propertyOf_one]
    exact look_eq hc (fun p hp => mem_all.2 (.inr hp)) (IdsOk.insert ⟨H.said, H.heard⟩ _) H.objects _
  unfold Plain at hv
  unfold receive made fact meaning isClass
  simp only [he, hp]
  generalize hD : ({ d with
      ids := (look (look d.ids d.entities v.entity).1 d.objects v.prop).1,
      entities := (look d.ids d.entities v.entity).2.1,
      objects := (look (look d.ids d.entities v.entity).1 d.objects v.prop).2.1 } : Dev) = D at HK ⊢
  generalize entityOf E [s] v.entity = e
  generalize propertyOf E [s] v.prop = p
  cases hd : v.data with
  | doubles xs =>
    simp only [numbers_eq, List.map_map, Function.comp_def]
    cases e with
    | none => rfl
    | some e =>
      cases p with
      | none => rfl
      | some p =>
        simp only [Option.bind_some]
        cases asValue E v.handle (xs.map fun x => float (E.narrow x)) with
        | none => rfl
        | some x =>
          simp only [Option.map_some]
          cases (v.handle != "" && v.handle != "set") <;> rfl
  | ints xs =>
    simp only [numbers_eq, List.map_map, Function.comp_def]
    cases e with
    | none => rfl
    | some e =>
      cases p with
      | none => rfl
      | some p =>
        simp only [Option.bind_some]
        cases asValue E v.handle (xs.map fun x => float (E.ofInt x)) with
        | none => rfl
        | some x =>
          simp only [Option.map_some]
          cases (v.handle != "" && v.handle != "set") <;> rfl
  | bools xs => rw [hd] at hv; exact hv.elim
  | ids xs =>
    rw [hd] at hv
    rcases hv with rfl | ⟨i, n, rfl, hi, hn⟩
    · simp only [commId, if_true, marker_eq, Option.map_some]
      cases e <;> cases p <;> rfl
    · obtain ⟨x, h1, h2, h3⟩ := entityOf_known hc HK hn
      have hne : ([i] : List Int) ≠ [-1] := fun h => hi (by injection h)
      simp only [commId, if_neg hi, h2, h3, if_neg hne, marker_eq, List.mapM_cons, List.mapM_nil, h1, Option.map_some]
      cases e <;> cases p <;> rfl
  | texts xs =>
    rw [hd] at hv
    match xs, hv with
    | [a], _ =>
      simp only [List.head?_cons, Option.map_some, marker_eq]
      cases e <;> cases p <;> rfl

theorem data_plain {E : Env} {s : Setup} (hc : Clear [s]) (t : Int) (vs : List Var) : ∀ {d : Dev}, Knows E s d →
    (∀ v ∈ vs, Plain s v) → ∃ d', data E d t vs = some (d', vs.filterMap (made E [s] t)) := by
  induction vs with
  | nil => intro d _ _; exact ⟨d, rfl⟩
  | cons v vs ih =>
    intro d H hv
    obtain ⟨d1, h1, H1⟩ := receive_plain hc H (hv v (List.mem_cons_self ..)) t
    obtain ⟨d2, h2⟩ := ih H1 fun u hu => hv u (List.mem_cons_of_mem _ hu)
    refine ⟨d2, ?_⟩
    simp only [data, h1, h2, Option.bind_some, Option.map_some, Option.some.injEq, Prod.mk.injEq, true_and]
    rw [List.filterMap_cons]
    cases made E [s] t v <;> rfl

/-- **C149**, in part. Missing: truth values, identifiers of several or unknown entities, facts of values of a class
that last, and messages of setup after the first. -/
theorem C149_data_become_facts_partial : C149_weak := by
  intro E s0 w0 w es t vs q h0 h hc hn hv hq ht
  obtain ⟨hc', H⟩ := reached_known h0 h hn hc
  rw [setups_noSetup hn]
  obtain ⟨d, hd⟩ := data_plain hc' t vs (d := w.dev) H hv
  refine ⟨{ w with
      dev := { d with last := t }, queue := q, seen := w.seen ++ vs.filterMap (made E [s0] t)
      handled := w.handled ++ [(t, .data vs)] }, ?_, rfl⟩
  unfold tick
  rw [if_neg (by omega), hq]
  simp only [handle, hd, Option.map_some]

/-! ## Examples -/

/-- An environment with two entities and a property. -/
def E0 : Env :=
  { opcode := fun n => if n = "vec" then some 50 else if n = "ready" then some 40 else if n = "go" then some 41 else none
    find := fun n => if n = "a" then some 1 else if n = "b" then some 2 else if n = "size" then some 3 else none
    narrow := fun _ => 0x3F800000
    ofInt := fun _ => 0x40000000
    period := 100 }

/-- Its setup. -/
def s0 : Setup :=
  ⟨[("a", 0), ("b", 1)], [("go", 2)], [("size", 3)], [("go", ⟨0, 2, .double, "", [1]⟩)]⟩

/-- The device once loaded. -/
def d0 : Dev :=
  ⟨[(0, "a"), (1, "b"), (2, "go"), (3, "size")], [("a", some 1), ("b", some 2)], [("size", some 3)],
   [("go", 41), ("ready", 40)], [("go", ⟨0, 2, .double, "", [1]⟩)], false, 0⟩

theorem start_s0 : start E0 s0 = some ⟨d0, [], [], [], []⟩ := by decide +kernel

theorem clear_s0 : Clear [s0] := by
  unfold Clear Setup.all s0
  decide +kernel

/-- A message as the partial theorem wants it, after a message about an unknown entity. -/
theorem C149_nonvacuous :
    let vs := [Var.mk 0 3 "" (.doubles [7]), Var.mk 1 3 "set" (.ints [1, 2]), Var.mk 9 3 "" (.ints [4]),
      Var.mk 0 3 "" (.ids [1]), Var.mk 1 3 "" (.texts [[0x61]])]
    ∃ w w', run E0 ⟨d0, [], [], [], []⟩ [.receive (.data [Var.mk 9 9 "" (.bools [])]), .tick 100,
        .receive (.data vs)] = some w ∧
      NoSetup w ∧ (∀ v ∈ vs, Plain s0 v) ∧ w.queue = .data vs :: [] ∧ tick E0 w 200 = some w' ∧
      w'.seen = [⟨1, 3, .atom (float 0x3F800000), 200, 300⟩, ⟨2, 3, .atoms [float 0x40000000, float 0x40000000], 200, 300⟩,
        ⟨1, 3, .objects [some 2], 200, 300⟩, ⟨2, 3, .text [0x61], 200, 300⟩] := by
  refine ⟨_, _, rfl, ?_, ?_, rfl, rfl, ?_⟩
  · intro s t h
    simp at h
  · intro v hv
    simp only [List.mem_cons, List.not_mem_nil, or_false] at hv
    rcases hv with rfl | rfl | rfl | rfl | rfl
    · trivial
    · trivial
    · trivial
    · exact .inr ⟨1, "b", rfl, by decide, by decide⟩
    · rfl
  · decide +kernel

/-- What the full statement says of a message received as the first after the history `es`. -/
theorem full_of (h : C149_full) {es : List Event} {w : World} {t : Int} {vs : List Var} {q : List Msg}
    (hr : run E0 ⟨d0, [], [], [], []⟩ es = some w) (hc : Clear (setups s0 w)) (hg : ∀ v ∈ vs, Good v)
    (hq : w.queue = .data vs :: q) (ht : w.dev.last + 80 ≤ t) :
    ∃ w', tick E0 w t = some w' ∧ w'.seen = w.seen ++ vs.filterMap (fact E0 (setups s0 w) t) :=
  h E0 s0 _ w es t vs q start_s0 hr hc hg hq ht

/-- **C149** does not hold in full: a truth value is not injected. -/
theorem C149_data_become_facts_violated : ¬ C149_full := by
  intro h
  obtain ⟨w', h1, h2⟩ := full_of h (es := [.receive (.data [Var.mk 0 3 "" (.bools [true])])]) (t := 100) rfl
    clear_s0 (fun v hv => by rw [List.mem_singleton.1 hv]; trivial) rfl (by decide)
  cases h1
  revert h2
  decide +kernel

/-- Nor for values of a class: their facts end when they begin. -/
theorem C149_class_violated :
    ∃ w w', run E0 ⟨d0, [], [], [], []⟩ [.receive (.data [Var.mk 0 3 "vec" (.doubles [7])])] = some w ∧
      tick E0 w 100 = some w' ∧ w'.seen = [⟨1, 3, .struct 50 [float 0x3F800000], 100, 100⟩] ∧
      w.seen ++ [Var.mk 0 3 "vec" (.doubles [7])].filterMap (fact E0 (setups s0 w) 100) =
        [⟨1, 3, .struct 50 [float 0x3F800000], 100, 200⟩] := by
  refine ⟨_, _, rfl, rfl, ?_⟩
  decide +kernel

/-- Nor after a second message of setup, even the same: nothing that comes after it is injected. -/
theorem C149_setup_violated :
    ∃ w w', run E0 ⟨d0, [], [], [], []⟩ [.receive (.setup s0), .tick 100,
        .receive (.data [Var.mk 0 3 "" (.doubles [7])])] = some w ∧
      tick E0 w 200 = some w' ∧ w'.seen = [] ∧
      w.seen ++ [Var.mk 0 3 "" (.doubles [7])].filterMap (fact E0 (setups s0 w) 200) =
        [⟨1, 3, .atom (float 0x3F800000), 200, 300⟩] := by
  refine ⟨_, _, rfl, rfl, ?_⟩
  decide +kernel

/-- Nor for the identifier of an entity that is not known, once it was used as that of the entity of a variable: a set
with a null object is injected. -/
theorem C149_null_violated :
    ∃ w w', run E0 ⟨d0, [], [], [], []⟩ [.receive (.data [Var.mk 9 3 "" (.ints [1]), Var.mk 0 3 "" (.ids [9])])] =
        some w ∧
      tick E0 w 100 = some w' ∧ w'.seen = [⟨1, 3, .objects [none], 100, 200⟩] := by
  refine ⟨_, _, rfl, rfl, ?_⟩
  decide +kernel

end Verif.Tcp
