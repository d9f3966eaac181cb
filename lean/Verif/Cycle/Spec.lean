import Verif.Cycle.Model
/-!
# Claims about the update cycle of a group
-/
namespace Verif.Cycle
open Verif.F32 Verif.ViewCtl

/-! ## Histories that can happen -/

/-- What the callers see to: a view that is put into the group has an OID and an object of its own; `inject`
is not called for groups; `inject_existing_object` is called with an object that has a view. New groups and
views come without pending changes. -/
def Ok (g : G) : Op → Prop
  | .load v => (∀ u ∈ g.views, u.oid ≠ v.oid ∧ u.obj ≠ v.obj) ∧ v.active = false ∧ v.stopped = false
  | .inject _ v => (∀ u ∈ g.views, u.oid ≠ v.oid ∧ u.obj ≠ v.obj) ∧ v.kind ≠ .group ∧ v.stopped = false
  | .injectGroup v => (∀ u ∈ g.views, u.oid ≠ v.oid ∧ u.obj ≠ v.obj) ∧ v.kind = .group
  | .injectExisting _ old v => old ∈ g.views ∧ (∀ u ∈ g.views, u.oid ≠ v.oid) ∧ old.obj = v.obj ∧ old.kind = v.kind
  | _ => True

/-- Every operation of the history is one that can happen in the state it meets. -/
def Oks (A : Arith) (g : G) : List Op → Prop
  | [] => True
  | op :: ops => Ok g op ∧ Oks A (step A g op) ops

/-- The values a group begins with. -/
structure Begin where
  slnThr : Rat
  actThr : Rat
  visThr : Rat
  cSln : Rat
  cAct : Rat
  cSlnThr : Rat
  cActThr : Rat

def Begin.group (b : Begin) : G :=
  { ctrl := Ctrl.fresh b.slnThr b.actThr b.visThr b.cSln b.cAct b.cSlnThr b.cActThr }

/-! ## What is to be observed -/

/-- The objects that come with a controller: programs of all kinds. -/
def Controlled (k : Kind) : Prop := k = .program ∨ k = .null true ∨ k = .null false ∨ k = .anti ∨ k = .inputLess

/-- Those that take inputs. -/
def TakesInputs (k : Kind) : Prop := k = .program ∨ k = .null true ∨ k = .null false ∨ k = .anti

/-- Those that are signalled after a time without inputs. -/
def Signalled (k : Kind) : Prop := k = .anti ∨ k = .inputLess

instance (k : Kind) : Decidable (Controlled k) := by unfold Controlled; infer_instance
instance (k : Kind) : Decidable (TakesInputs k) := by unfold TakesInputs; infer_instance
instance (k : Kind) : Decidable (Signalled k) := by unfold Signalled; infer_instance

/-- The value of a member, as a program reads it. -/
def value (g : G) (m : Member) : Rat := (g.ctrl.get m).val

/-- The group is c-active and c-salient. -/
def On (g : G) : Prop := value g .cActThr < value g .cAct ∧ value g .cSlnThr < value g .cSln

/-- The view's activation is above the threshold, in a group that is c-active and c-salient. -/
def Active (g : G) (v : V) : Prop := value g .actThr < v.ctl.act.val ∧ On g

/-- The view's visibility is above the threshold, in a group that is c-active and c-salient. -/
def Visible (g : G) (v : V) : Prop := value g .visThr < v.ctl.vis.val ∧ On g

/-- The saliency is above the threshold. -/
def Salient (g : G) (v : V) : Prop := value g .slnThr < v.ctl.sln.val

/-- The changes of a member requested in a history that begins with the value `x`. -/
def requests (x : Rat) (m : Member) : List Op → List Rat
  | [] => []
  | .modGroup n y :: ops => if n = m then y :: requests x m ops else requests x m ops
  | .setGroup n y :: ops => if n = m then (y - x) :: requests x m ops else requests x m ops
  | _ :: ops => requests x m ops

/-- How often the program with the view `p` has been given the input with the view `i`. -/
def given (g : G) (p i : Nat) : Nat := g.took.count (p, i)

/-- The inputs that the program with the view `p` was given between the states `g₀` and `g`, in this order. -/
def received (g₀ g : G) (p : Nat) : List Nat :=
  ((g.took.drop g₀.took.length).filter fun x => x.1 = p).map (·.2)

/-! ## The claims -/

/-- C96. An update gives each of the values the mean of the changes requested since the last one, kept
within 0 and 1. -/
def C96_full : Prop :=
  ∀ (b : Begin) (pre : List Op) (o : Order) (t n : Int) (ops : List Op) (o' : Order) (t' n' : Int) (m : Member),
    (∀ op ∈ ops, ∀ o t n, op ≠ .update o t n) →
    let g₀ := run exact b.group (pre ++ [.update o t n])
    let g := run exact g₀ (ops ++ [.update o' t' n'])
    let rs := requests (value g₀ m) m ops
    value g m = if rs = [] then value g₀ m else clamp (value g₀ m + rs.sum / rs.length)

/-- C97. After an update, the controllers that are active are those of the views that are active, apart from
views injected after the planned time of the update. -/
def C97_full : Prop :=
  ∀ (A : Arith) (b : Begin) (ops : List Op) (o : Order) (t n : Int),
    Oks A b.group ops →
    let g₀ := run A b.group ops
    let g := run A b.group (ops ++ [.update o t n])
    ∀ v ∈ g.views, Controlled v.kind → (∀ u ∈ g₀.views, u.oid = v.oid → u.ijt < t) →
      (v.active = true ↔ Active g v)

/-- C98. After an update, the group is among the viewing groups of just the groups that have a visible view in
it, with the view's `cov`, apart from views injected after the planned time of the update and from groups that
have been invalidated. -/
def C98_full : Prop :=
  ∀ (A : Arith) (b : Begin) (ops : List Op) (o : Order) (t n : Int),
    Oks A b.group ops →
    let g₀ := run A b.group ops
    let g := run A b.group (ops ++ [.update o t n])
    ∀ obj, g.dead obj = false → (∀ u ∈ g₀.views, u.obj = obj → u.ijt < t) →
      ∀ c, g.viewing obj = some c ↔ ∃ v ∈ g.views, v.kind = .group ∧ v.obj = obj ∧ Visible g v ∧ v.cov = c

/-- C99. In an update, a program that takes inputs and is active is given, once, each view that has become
salient, or is salient and to be treated as new at each update; and nothing else. -/
def C99_full : Prop :=
  ∀ (A : Arith) (b : Begin) (ops : List Op) (o : Order) (t n : Int),
    Oks A b.group ops →
    let g₀ := run A b.group ops
    let g := run A b.group (ops ++ [.update o t n])
    ∀ p ∈ g.views, p.stopped = false →
      ∀ i₀ ∈ g₀.views, i₀.ijt < t → ∀ i ∈ g.views, i.oid = i₀.oid →
        ((TakesInputs p.kind ∧ Active g p ∧ Salient g i ∧
            (¬ Salient g₀ i₀ ∨ i.sync = .hold ∨ i.sync = .always)) →
          given g p.oid i.oid = given g₀ p.oid i.oid + 1) ∧
        (¬ (TakesInputs p.kind ∧ Active g p ∧ Salient g i ∧
            (¬ Salient g₀ i₀ ∨ i.sync = .hold ∨ i.sync = .always)) →
          given g p.oid i.oid = given g₀ p.oid i.oid)

/-- What can happen in a period without anything being destroyed: injections and requests. -/
def Quiet : Op → Prop
  | .inject _ _ | .injectGroup _ | .injectExisting _ _ _ | .modGroup _ _ | .setGroup _ _ | .modView _ _ _
  | .setView _ _ _ => True
  | _ => False

/-- C100. A program injected between two updates is given the very inputs that an active program present
since the update has been given in this period. -/
def C100_full : Prop :=
  ∀ (A : Arith) (b : Begin) (pre : List Op) (o : Order) (t n : Int) (ops : List Op) (now : Int) (q : V),
    (∀ op ∈ ops, Quiet op) →
    Oks A b.group (pre ++ .update o t n :: ops ++ [.inject now q]) →
    let g₀ := run A b.group pre
    let g₁ := run A b.group (pre ++ [.update o t n])
    let g := run A b.group (pre ++ .update o t n :: ops ++ [.inject now q])
    ∀ p ∈ g₁.views, TakesInputs p.kind → p.stopped = false → Active g₁ p → q.kind = .program → Active g q →
      received g₀ g q.oid = received g₀ g p.oid

/-- C101. In an update, a signalling job is pushed, once, for each anti-program and each input-less program
whose controller becomes active, and for no other. -/
def C101_full : Prop :=
  ∀ (A : Arith) (b : Begin) (ops : List Op) (o : Order) (t n : Int),
    Oks A b.group ops →
    let g₀ := run A b.group ops
    let g := run A b.group (ops ++ [.update o t n])
    ∀ v₀ ∈ g₀.views, ∀ v ∈ g.views, v.oid = v₀.oid →
      ((Signalled v.kind ∧ v₀.active = false ∧ v.active = true) →
        g.signals.count v.oid = g₀.signals.count v.oid + 1) ∧
      (¬ (Signalled v.kind ∧ v₀.active = false ∧ v.active = true) →
        g.signals.count v.oid = g₀.signals.count v.oid)

/-! ## Where the claims hold -/

/-- The update sees whether the group was c-active and c-salient: it evaluates the old values first, or it does
not matter. -/
def Sees (A : Arith) (g : G) (o : Order) : Prop :=
  (o.lateAct = true →
    (value g .cActThr < value g .cAct ↔ value g .cActThr < ((g.ctrl.get .cAct).updateThr A).val)) ∧
  (o.lateSln = true →
    (value g .cSlnThr < value g .cSln ↔ value g .cSlnThr < ((g.ctrl.get .cSln).updateThr A).val))

/-- What C97 needs: no program's activation lies between the old and the new threshold; when programs are
skipped, the group stays as it was with regard to being c-active and c-salient; and so it does when an
existing object is injected. -/
def Calm (A : Arith) (g : G) : Op → Prop
  | .update o t n =>
    Sees A g o ∧
    ∀ v ∈ g.views, v.kind.controlled = true → g.dead v.obj = false →
      (value g .actThr < v.ctl.act.val ↔ value (update A o t n g) .actThr < v.ctl.act.val) ∧
      (t ≤ v.ijt → (On g ↔ On (update A o t n g)))
  | .injectExisting n old v => On g ↔ On (injectExisting A n g old v)
  | _ => True

/-- What C98 needs: the same for visibility; moreover a view that is deleted is not visible, and a view of a
group that is injected with visibility above the threshold is salient, and the group c-active. -/
def VCalm (A : Arith) (g : G) : Op → Prop
  | .update o t n =>
    Sees A g o ∧
    ∀ v ∈ g.views, v.kind = .group → g.dead v.obj = false →
      (value g .visThr < v.ctl.vis.val ↔ value (update A o t n g) .visThr < v.ctl.vis.val) ∧
      (t ≤ v.ijt → (On g ↔ On (update A o t n g))) ∧
      ((∀ u ∈ (update A o t n g).views, u.oid ≠ v.oid) → ¬ Visible g v)
  | .injectExisting n old v => On g ↔ On (injectExisting A n g old v)
  | .injectGroup v => value g .visThr < v.ctl.vis.val → (On g ↔ value g .cSlnThr < value g .cSln ∧ Salient g v)
  | _ => True

/-- Every operation of a history meets a condition on the state it finds. -/
def Each (A : Arith) (P : G → Op → Prop) (g : G) : List Op → Prop
  | [] => True
  | op :: ops => P g op ∧ Each A P (step A g op) ops

end Verif.Cycle
