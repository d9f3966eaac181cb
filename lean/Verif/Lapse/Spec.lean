import Verif.Lapse.Model
import Mathlib.Logic.Relation
/-!
# What lapsing should do (C137 to C140)
-/
namespace Verif.Lapse
open Verif.F32 Verif.ViewCtl

/-- The times of a history do not go back, and none is before `t0`. -/
def Ordered (t0 : Int) (h : List (Int × Op)) : Prop :=
  (∀ e ∈ h, t0 ≤ e.1) ∧ h.Pairwise fun a b => a.1 ≤ b.1

/-- At the time `u` of the history, something happened to the model in the state `m` such that `P`. -/
def At (E : Env) (m0 : Mdl) (h : List (Int × Op)) (u : Int) (P : Mdl → Op → Prop) : Prop :=
  ∃ h1 op h2, h = h1 ++ (u, op) :: h2 ∧ P (run E m0 h1) op

/-- An input that is compared with the model: no orphan, not invalidated. -/
def In.ok (i : In) : Prop := i.orphan = false ∧ i.dead = false

/-- The primary (secondary) controller reduced an input that matched. -/
def MatchP (m : Mdl) (op : Op) : Prop :=
  ∃ i outs, op = .runP i outs ∧ m.p.jobs ≠ 0 ∧ i.ok ∧ i.goal = false ∧ i.hit = true
def MatchS (m : Mdl) (op : Op) : Prop :=
  ∃ i outs, op = .runS i outs ∧ m.s.jobs ≠ 0 ∧ i.ok ∧ i.hit = true

/-- The primary (secondary) controller became active at an update. -/
def WakeP (E : Env) (m : Mdl) (op : Op) : Prop :=
  op = .updP ∧ m.p.on = false ∧ (updP E m).p.on = true
def WakeS (E : Env) (m : Mdl) (op : Op) : Prop :=
  op = .updS ∧ m.s.on = false ∧ (updS E m).s.on = true

/-- Nothing matched within the horizon, and the model is older than that. -/
def UnmatchedP (E : Env) (t0 : Int) (m0 : Mdl) (h : List (Int × Op)) (t : Int) : Prop :=
  E.primThz < t - t0 ∧ ∀ u, At E m0 h u MatchP → E.primThz < t - u
def UnmatchedS (E : Env) (t0 : Int) (m0 : Mdl) (h : List (Int × Op)) (t : Int) : Prop :=
  E.secThz < t - t0 ∧ ∀ u, At E m0 h u MatchS → E.secThz < t - u

/-- The model has been active in the group for longer than the horizon. -/
def AwakeP (E : Env) (m0 : Mdl) (h : List (Int × Op)) (t : Int) : Prop :=
  ∀ u, At E m0 h u (WakeP E) → E.primThz < t - u
def AwakeS (E : Env) (m0 : Mdl) (h : List (Int × Op)) (t : Int) : Prop :=
  ∀ u, At E m0 h u (WakeS E) → E.secThz < t - u

/-- C137: when an active model meets an input that does not match, and none has matched for the horizon
of the primary group, then after the next updates it sleeps in the primary group and is awake in the
secondary one. -/
def C137_full : Prop :=
  ∀ (E : Env) (t0 : Int) (a : Rat) (h : List (Int × Op)) (t : Int) (i : In),
    0 ≤ E.pThr → 0 ≤ E.sThr → Ordered t0 (h ++ [(t, Op.updP)]) →
    (run E (new E t0 a) h).p.alive = true → (run E (new E t0 a) h).p.jobs ≠ 0 →
    (run E (new E t0 a) h).s.inv = false → i.ok → i.goal = false → i.hit = false → UnmatchedP E t0 (new E t0 a) h t →
    (run E (new E t0 a) (h ++ [(t, .runP i []), (t, .updP), (t, .updS)])).p.on = false ∧
    (run E (new E t0 a) (h ++ [(t, .runP i []), (t, .updP), (t, .updS)])).s.on = true

/-- C138: an input that does not match makes the model leave its primary group only after a horizon in
which it was active there and nothing matched, and be forgotten only after such a time in its secondary
group. -/
def C138_full : Prop :=
  ∀ (E : Env) (t0 : Int) (a : Rat) (h : List (Int × Op)) (t : Int) (i : In),
    Ordered t0 (h ++ [(t, Op.updP)]) →
    ((step E (run E (new E t0 a) h) t (.runP i [])).pa ≠ (run E (new E t0 a) h).pa →
      UnmatchedP E t0 (new E t0 a) h t ∧ AwakeP E (new E t0 a) h t) ∧
    ((step E (run E (new E t0 a) h) t (.runS i [])).status ≠ (run E (new E t0 a) h).status →
      UnmatchedS E t0 (new E t0 a) h t ∧ AwakeS E (new E t0 a) h t)

/-- C139: a model one of whose controllers has been killed is gone after the next updates: both views
have left their groups, both controllers are dead, and the model base does not know it any more (so that
it can be learned again, or is refused). -/
def C139_full : Prop :=
  ∀ (E : Env) (t0 : Int) (a : Rat) (h : List (Int × Op)) (t : Int), 0 ≤ E.sThr →
    ((run E (new E t0 a) h).p.inv = true ∨ (run E (new E t0 a) h).s.inv = true) →
    (run E (new E t0 a) (h ++ [(t, .updP), (t, .updS)])).pin = false ∧
    (run E (new E t0 a) (h ++ [(t, .updP), (t, .updS)])).sin = false ∧
    (run E (new E t0 a) (h ++ [(t, .updP), (t, .updS)])).p.inv = true ∧
    (run E (new E t0 a) (h ++ [(t, .updP), (t, .updS)])).s.inv = true ∧
    (run E (new E t0 a) (h ++ [(t, .updP), (t, .updS)])).status ≠ .known

/-- `k` is built on `j`. -/
def Dep (h : List NetOp) (k j : Nat) : Prop := ∃ deps, NetOp.make k deps ∈ h ∧ j ∈ deps

/-- Each controller is made once. -/
def Once (h : List NetOp) : Prop :=
  (h.filterMap fun o => match o with | .make k _ => some k | _ => none).Nodup

/-- A kill in the history that concerned an existing controller. -/
def Killed (h : List NetOp) (j : Nat) : Prop :=
  ∃ h1 h2, h = h1 ++ .kill j :: h2 ∧ ∃ deps, NetOp.make j deps ∈ h1

/-- No input kills a controller any more. -/
def Settled (n : Net) : Prop := ∀ k, (n.step (.give k)).inv = n.inv

/-- C140: once the inputs have done their work, a controller is dead exactly if it, or something it is
built on, however indirectly, has been killed. -/
def C140_full : Prop :=
  ∀ (h : List NetOp) (k : Nat), Once h → Settled (Net.empty.run h) →
    ((Net.empty.run h).inv k = true ↔ ∃ j, Relation.ReflTransGen (Dep h) k j ∧ Killed h j)

end Verif.Lapse
