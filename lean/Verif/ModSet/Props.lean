import Verif.ModSet.Model
import Mathlib.Tactic.NormNum
import Mathlib.Tactic.SplitIfs
/-!
# mod and set take effect (C144), fvw only looks (C145)
-/
namespace Verif.ModSet
open Verif.F32 Verif.ViewCtl

/-- The value asked for. -/
def asked (isSet : Bool) (old v : Rat) : Rat := max 0 (min 1 (if isSet then v else old + v))

/-- Nothing is pending for the view. -/
def Fresh (s : Mem) (g : Nat) (x : View) : Prop :=
  (s.grps g).pending = [] ∧ ∀ c : Ctl, ((x.chan c).acc = 0 ∧ (x.chan c).changes = 0) ∧ 0 ≤ (x.chan c).val ∧ (x.chan c).val ≤ 1

def index : Ctl → Nat
  | .sln => 3
  | .act => 7
  | .vis => 8

/-- C144: a mod or set of a program changes the value it names, within [0,1]: the saliency threshold of
propagation of an object at once, a control value of a view or a threshold of a group at the next update
of the group. -/
def C144_full : Prop :=
  (∀ (s : Mem) (isSet : Bool) (o : Nat) (v : Rat), (s.objs o).arity < (s.objs o).size →
    ∃ s', command s isSet (.obj o) (s.objs o).arity v = some s' ∧ (s'.objs o).psln = asked isSet (s.objs o).psln v) ∧
  (∀ (s : Mem) (isSet : Bool) (g oid : Nat) (x : View) (c : Ctl) (v : Rat), (s.grps g).views oid = some x → Fresh s g x →
    ∃ s' y, command s isSet (.view g oid) (index c) v = some s' ∧ ((update s' g).grps g).views oid = some y ∧
      (y.chan c).val = asked isSet (x.chan c).val v) ∧
  (∀ (s : Mem) (isSet : Bool) (g : Nat) (t : Option (Nat × Nat)) (v : Rat), (s.grps g).slnThr.changes = 0 → (s.grps g).slnThr.acc = 0 →
    ∃ s', command s isSet (.grp g t) 2 v = some s' ∧ ((update s' g).grps g).slnThr.val = asked isSet (s.grps g).slnThr.val v)

def mem0 : Mem :=
  { objs := fun _ => ⟨5, 11, fun _ => 1 / 2⟩
    grps := fun _ => ⟨fun _ => none, [], { val := 1 / 2 }, 7⟩
    addr := fun _ => 0 }

/-- C144 fails: the threshold of an object with parts (such as a fact, with its timestamps) is not changed;
that of one without is set to anything, also beyond [0,1];
a threshold of a group that is referred to is a null pointer, and for one that is an input the request
goes to some view of the group it is in. -/
theorem C144_modset_violated : ¬ C144_full ∧
    (∀ (s : Mem) (isSet : Bool) (o : Nat) (v : Rat), (s.objs o).arity + 1 < (s.objs o).size →
      ∃ s', command s isSet (.obj o) (s.objs o).arity v = some s' ∧ s'.objs o = s.objs o) ∧
    (∀ (s : Mem) (o : Nat) (v : Rat), (s.objs o).size = (s.objs o).arity + 1 →
      ∃ s', command s true (.obj o) (s.objs o).arity v = some s' ∧ (s'.objs o).psln = v) ∧
    (∀ (s : Mem) (isSet : Bool) (g m : Nat) (v : Rat), command s isSet (.grp g none) m v = none) ∧
    (∀ (s : Mem) (isSet : Bool) (g h oid m : Nat) (v : Rat), ∃ s', command s isSet (.grp g (some (h, oid))) m v = some s' ∧
      ((update s' g).grps g).slnThr = (s.grps g).slnThr.updateThr exact ∧
      (s'.grps h).pending = (s.grps h).pending ++ [⟨isSet, (s.grps g).word12, m, v⟩]) := by
  have h1 : ∀ (s : Mem) (isSet : Bool) (o : Nat) (v : Rat), (s.objs o).arity + 1 < (s.objs o).size →
      ∃ s', command s isSet (.obj o) (s.objs o).arity v = some s' ∧ s'.objs o = s.objs o := by
    intro s isSet o v h
    refine ⟨_, rfl, ?_⟩
    have hne : (s.objs o).arity ≠ (s.objs o).size - 1 := by omega
    cases isSet <;> simp [Mem.setObj, Obj.mod, Obj.set, hne]
  refine ⟨fun h => ?_, h1, ?_, fun _ _ _ _ _ => rfl, ?_⟩
  · obtain ⟨s', e1, e2⟩ := h.1 mem0 true 0 1 (by decide)
    obtain ⟨s2, e3, e4⟩ := h1 mem0 true 0 1 (by decide)
    rw [e1] at e3
    cases e3
    rw [e4] at e2
    norm_num [asked, mem0, Obj.psln] at e2
  · intro s o v h
    have he : ¬ (s.objs o).arity ≠ (s.objs o).size - 1 := by omega
    exact ⟨_, rfl, by simp [Mem.setObj, Obj.set, he, Obj.put, Obj.psln]⟩
  · intro s isSet g h oid m v
    refine ⟨_, rfl, ?_, ?_⟩
    · by_cases hg : g = h
      · subst hg; simp [update, Mem.setGrp]
      · simp [update, Mem.setGrp, hg]
    · simp [Mem.setGrp]

theorem asked_clamp (isSet : Bool) (old v : Rat) : asked isSet old v = clamp (if isSet then v else old + v) := (clamp_eq _).symm

theorem exec_other (views : Nat → Option View) (q : Pend) (oid : Nat) (h : q.oid ≠ oid) : exec views q oid = views oid := by
  unfold exec
  cases views q.oid with
  | none => rfl
  | some x =>
    cases member q.m with
    | none => rfl
    | some k => exact if_neg (Ne.symm h)

/-- A request as an operation on the view. -/
def Pend.op (q : Pend) : Option Op := (member q.m).map fun k => if q.isSet then Op.set k q.v else Op.mod k q.v

theorem exec_self (views : Nat → Option View) (q : Pend) (x : View) (h : views q.oid = some x) :
    exec views q q.oid = some (run exact x q.op.toList) := by
  unfold exec Pend.op
  rw [h]
  cases hm : member q.m with
  | none => simp [h, run]
  | some k => cases hs : q.isSet <;> simp [run, step]

/-- The pending operations of a group reach each of its views, in order. -/
theorem execs (ps : List Pend) (views : Nat → Option View) (oid : Nat) (x : View) (h : views oid = some x) :
    ps.foldl exec views oid = some (run exact x ((ps.filter fun q => q.oid = oid).filterMap Pend.op)) := by
  induction ps generalizing views x with
  | nil => simpa [run] using h
  | cons q ps ih =>
    rw [List.foldl_cons]
    by_cases hq : q.oid = oid
    · subst hq
      rw [ih _ _ (exec_self views q x h)]
      cases hop : q.op with
      | none => simp [hop, run]
      | some o => simp [hop, run]
    · rw [ih _ x (by rw [exec_other views q oid hq, h])]
      simp [hq]

/-- What a command asks of the view `oid` of `g`. -/
def asks (g oid : Nat) (c : Bool × Place × Nat × Rat) : List Op :=
  match c with
  | (isSet, .view g' oid', m, v) => if g' = g ∧ oid' = oid then (Pend.op ⟨isSet, oid, m, v⟩).toList else []
  | _ => []

/-- Commands on objects and views, in any order. -/
def commands (s : Mem) (cs : List (Bool × Place × Nat × Rat)) : Option Mem :=
  cs.foldl (fun s c => s.bind fun s => command s c.1 c.2.1 c.2.2.1 c.2.2.2) (some s)

def Place.plain : Place → Bool
  | .grp .. => false
  | .copy .. => false
  | _ => true

theorem commands_pending (cs : List (Bool × Place × Nat × Rat)) (hp : ∀ c ∈ cs, c.2.1.plain = true) (s : Mem) (g oid : Nat) :
    ∃ s', commands s cs = some s' ∧ (s'.grps g).views = (s.grps g).views ∧
      ((s'.grps g).pending.filter fun q => q.oid = oid).filterMap Pend.op =
        ((s.grps g).pending.filter fun q => q.oid = oid).filterMap Pend.op ++ cs.flatMap (asks g oid) := by
  induction cs generalizing s with
  | nil => exact ⟨s, rfl, rfl, by simp⟩
  | cons c cs ih =>
    obtain ⟨isSet, p, m, v⟩ := c
    have hc := hp _ (List.mem_cons_self)
    have hcs : ∀ c ∈ cs, c.2.1.plain = true := fun x hx => hp x (by simp [hx])
    have go : ∀ s1, command s isSet p m v = some s1 → commands s ((isSet, p, m, v) :: cs) = commands s1 cs := by
      intro s1 h1
      simp [commands, h1]
    cases p with
    | grp => simp [Place.plain] at hc
    | copy => simp [Place.plain] at hc
    | atomic =>
      obtain ⟨s', h1, h2, h3⟩ := ih hcs s
      exact ⟨s', by rw [go s rfl, h1], h2, by rw [h3]; simp [asks]⟩
    | obj o =>
      obtain ⟨s', h1, h2, h3⟩ := ih hcs (s.setObj o (if isSet then (s.objs o).set m v else (s.objs o).mod m v))
      exact ⟨s', by rw [go _ rfl, h1], h2, by rw [h3]; simp [asks, Mem.setObj]⟩
    | view g' oid' =>
      obtain ⟨s', h1, h2, h3⟩ := ih hcs (s.setGrp g' { s.grps g' with pending := (s.grps g').pending ++ [⟨isSet, oid', m, v⟩] })
      refine ⟨s', by rw [go _ rfl, h1], ?_, ?_⟩
      · rw [h2]
        by_cases hg : g = g'
        · subst hg; simp [Mem.setGrp]
        · simp [Mem.setGrp, hg]
      · rw [h3]
        by_cases hg : g' = g
        · subst hg
          by_cases ho : oid' = oid
          · subst ho
            cases hop : Pend.op ⟨isSet, oid', m, v⟩ <;> simp [Mem.setGrp, asks, hop]
          · simp [Mem.setGrp, asks, ho]
        · simp [Mem.setGrp, asks, hg, Ne.symm hg]

/-- C144 in part: whatever commands on views and objects are carried out between two updates of the group, in whatever order,
the view gets those that name it, in order, and is then updated (so that by C21 its values change by the
mean of what was asked). -/
theorem C144_views (cs : List (Bool × Place × Nat × Rat)) (hp : ∀ c ∈ cs, c.2.1.plain = true) (s : Mem) (g oid : Nat) (x : View)
    (hx : (s.grps g).views oid = some x) (hpend : (s.grps g).pending = []) :
    ∃ s', commands s cs = some s' ∧
      ((update s' g).grps g).views oid = some (run exact x (cs.flatMap (asks g oid) ++ [.update])) ∧ ((update s' g).grps g).pending = [] := by
  obtain ⟨s', h1, h2, h3⟩ := commands_pending cs hp s g oid
  refine ⟨s', h1, ?_, by simp [update, Mem.setGrp]⟩
  have := execs (s'.grps g).pending (s'.grps g).views oid x (by rw [h2, hx])
  rw [h3, hpend] at this
  simp only [List.filter_nil, List.filterMap_nil, List.nil_append] at this
  simp only [update, Mem.setGrp, if_true, this, Option.map_some]
  simp [run, step]

/-- C144 in part: a single command on a view, and the threshold of an object without parts. What is
missing: objects with parts, groups, set beyond [0,1] for objects. -/
theorem C144_modset_partial :
    (∀ (s : Mem) (isSet : Bool) (o : Nat) (v : Rat), (s.objs o).size = (s.objs o).arity + 1 → (isSet = true → 0 ≤ v ∧ v ≤ 1) →
      ∃ s', command s isSet (.obj o) (s.objs o).arity v = some s' ∧ (s'.objs o).psln = asked isSet (s.objs o).psln v ∧
        (∀ i, i ≠ (s.objs o).arity → (s'.objs o).code i = (s.objs o).code i) ∧ (∀ o', o' ≠ o → s'.objs o' = s.objs o') ∧ s'.grps = s.grps) ∧
    (∀ (s : Mem) (isSet : Bool) (o m : Nat) (v : Rat), (s.objs o).size = (s.objs o).arity + 1 → m ≠ (s.objs o).arity →
      ∃ s', command s isSet (.obj o) m v = some s' ∧ s'.objs o = s.objs o) ∧
    (∀ (s : Mem) (isSet : Bool) (g oid : Nat) (x : View) (c : Ctl) (v : Rat), (s.grps g).views oid = some x → Fresh s g x →
      ∃ s' y, command s isSet (.view g oid) (index c) v = some s' ∧ ((update s' g).grps g).views oid = some y ∧
        (y.chan c).val = asked isSet (x.chan c).val v ∧ ∀ c', c' ≠ c → (y.chan c').val = (x.chan c').val) := by
  refine ⟨?_, ?_, ?_⟩
  · intro s isSet o v hs hv
    have he : ¬ (s.objs o).arity ≠ (s.objs o).size - 1 := by omega
    refine ⟨_, rfl, ?_, ?_, ?_, rfl⟩
    · rw [asked_clamp]
      cases isSet with
      | false => simp [Mem.setObj, Obj.mod, he, Obj.put, Obj.psln]
      | true =>
        have := hv rfl
        simp [Mem.setObj, Obj.set, he, Obj.put, Obj.psln, clamp_id this.1 this.2]
    · intro i hi
      cases isSet <;> simp [Mem.setObj, Obj.mod, Obj.set, he, Obj.put, hi]
    · intro o' ho
      simp [Mem.setObj, ho]
  · intro s isSet o m v hs hm
    have he : m ≠ (s.objs o).size - 1 := by omega
    refine ⟨_, rfl, ?_⟩
    cases isSet <;> simp [Mem.setObj, Obj.mod, Obj.set, he]
  · intro s isSet g oid x c v hx hf
    obtain ⟨s', h1, h2, -⟩ := C144_views [(isSet, .view g oid, index c, v)] (by simp [Place.plain]) s g oid x hx hf.1
    have hb : ∀ c : Ctl, 0 ≤ (x.chan c).val ∧ (x.chan c).val ≤ 1 := fun c => (hf.2 c).2
    have hz : ∀ c : Ctl, (x.chan c).acc = 0 ∧ (x.chan c).changes = 0 := fun c => (hf.2 c).1
    have hops : [(isSet, Place.view g oid, index c, v)].flatMap (asks g oid) ++ [Op.update] =
        [Request.op ⟨isSet, c.member, v⟩] ++ [.update] := by
      cases c <;> cases isSet <;> simp [asks, Pend.op, member, index, Request.op, Ctl.member]
    rw [hops] at h2
    have hcm : commands s [(isSet, .view g oid, index c, v)] = command s isSet (.view g oid) (index c) v := rfl
    refine ⟨s', _, hcm.symm.trans h1, h2, ?_, ?_⟩
    · have := C21_mean x [] [⟨isSet, c.member, v⟩] c hb hz (Or.inl rfl)
      simp only [List.map_cons, List.map_nil, List.nil_append] at this
      rw [this]
      cases isSet <;> simp [asked, Request.change, run]
    · intro c' hc
      have := C21_mean x [] [⟨isSet, c.member, v⟩] c' hb hz (Or.inl rfl)
      simp only [List.map_cons, List.map_nil, List.nil_append] at this
      rw [this]
      have hne : c.member ≠ c'.member := by cases c <;> cases c' <;> simp_all [Ctl.member]
      simp [hne, run]

def mem1 : Mem :=
  { objs := fun _ => ⟨5, 6, fun _ => 1 / 2⟩
    grps := fun _ => ⟨fun i => if i = 9 then some ⟨{ val := 1 / 2 }, { val := 1 / 4 }, { val := 1 }, { val := .inf }, 0, 0⟩ else none, [], { val := 1 / 2 }, 7⟩
    addr := fun _ => 0 }

theorem C144_nonvacuous : (mem1.objs 0).size = (mem1.objs 0).arity + 1 ∧
    (∃ x, (mem1.grps 1).views 9 = some x ∧ Fresh mem1 1 x ∧ (x.chan .sln).val = 1 / 2 ∧ asked false (x.chan .sln).val (1 / 4) = 3 / 4) := by
  refine ⟨rfl, _, rfl, ⟨rfl, ?_⟩, rfl, ?_⟩
  · intro c
    cases c <;> norm_num [View.chan]
  · norm_num [asked, View.chan]

/-! ## C145 -/

/-- C145: looking up a view with fvw changes nothing, and gives the values of the view and its group. -/
def C145_full : Prop :=
  ∀ (h : Heap) (o g : Nat) (s : Slot), h.slot o g = some s → s.freed = false →
    ∃ c, fvw h o g = some (some c, h) ∧ c.view = s.view ∧ c.host = h.addr g

/-- C145 fails, always: the view found is deleted, though the object and the group still have it, so that
the next look-up reads freed memory; and of the group's address 32 bits are kept. -/
theorem C145_fvw_violated : ¬ C145_full ∧
    (∀ (h : Heap) (o g : Nat) (s : Slot), h.slot o g = some s → s.freed = false →
      ∃ c h', fvw h o g = some (some c, h') ∧ h'.slot o g = some { s with freed := true } ∧ fvw h' o g = none ∧
        (c.host = h.addr g ↔ h.addr g < 2 ^ 32)) := by
  have key : ∀ (h : Heap) (o g : Nat) (s : Slot), h.slot o g = some s → s.freed = false →
      ∃ c h', fvw h o g = some (some c, h') ∧ h'.slot o g = some { s with freed := true } ∧ fvw h' o g = none ∧
        (c.host = h.addr g ↔ h.addr g < 2 ^ 32) := by
    intro h o g s hs hf
    refine ⟨⟨s.view, h.addr g % 2 ^ 32⟩, { h with slot := fun o' g' => if o' = o ∧ g' = g then some { s with freed := true } else h.slot o' g' },
      by simp [fvw, hs, hf], by simp, by simp [fvw], ?_⟩
    show h.addr g % 2 ^ 32 = h.addr g ↔ _
    omega
  refine ⟨fun h => ?_, key⟩
  let s : Slot := ⟨⟨{ val := 0 }, { val := 0 }, { val := 0 }, { val := .inf }, 0, 0⟩, false⟩
  let hp : Heap := ⟨fun _ _ => some s, fun _ => 0⟩
  obtain ⟨c, h1, _⟩ := h hp 0 0 s rfl rfl
  obtain ⟨c', h', h2, h3, _⟩ := key hp 0 0 s rfl rfl
  rw [h1] at h2
  injection h2 with h2
  injection h2 with _ h2
  rw [← h2] at h3
  have : s.freed = true := congrArg Slot.freed (Option.some.inj h3)
  exact absurd this (by decide)

/-- C145 in part: the values copied are those of the view, other views are left alone, and without a view
nothing happens. What is missing: the view itself survives. -/
theorem C145_fvw_partial (h : Heap) (o g : Nat) :
    (h.slot o g = none → fvw h o g = some (none, h)) ∧
    ∀ s, h.slot o g = some s → s.freed = false → ∃ c h', fvw h o g = some (some c, h') ∧ c.view = s.view ∧
      ∀ o' g', ¬ (o' = o ∧ g' = g) → h'.slot o' g' = h.slot o' g' := by
  constructor
  · intro hn; simp [fvw, hn]
  · intro s hs hf
    refine ⟨⟨s.view, h.addr g % 2 ^ 32⟩, { h with slot := fun o' g' => if o' = o ∧ g' = g then some { s with freed := true } else h.slot o' g' },
      by simp [fvw, hs, hf], rfl, fun o' g' hne => if_neg hne⟩

theorem C145_nonvacuous : ∃ (h : Heap) (s : Slot), h.slot 1 2 = some s ∧ s.freed = false ∧ h.slot 1 3 = none :=
  ⟨⟨fun o g => if o = 1 ∧ g = 2 then some ⟨⟨{ val := 0 }, { val := 0 }, { val := 0 }, { val := .inf }, 0, 0⟩, false⟩ else none, fun _ => 0⟩, _, rfl, rfl, rfl⟩

end Verif.ModSet
