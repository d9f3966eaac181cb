import Verif.Learn.Model
import Verif.Extract.Props
import Verif.ModelBase.Props
/-!
# What should be learned
-/
namespace Verif.Learn
open Verif.Extract (World Inp Inst Fct Meanwhile)
open Verif.ModelBase (Base Has)

/-- Nothing was made yet, and the facts and models at hand have been numbered before. -/
def Numbered (st : St) : Prop := st.made = [] ∧ (∀ i ∈ st.inputs, i.fact < st.next) ∧ ∀ e ∈ st.base.white, e.mdl < st.next

/-! ## Changes -/

/-- The fact may be the cause of the change: it is no axiom, not the old observation, no instance of a state; it came
before the new one and not together with the old one; it has a value in common with one of them, or is a model's instance
that has the difference; and if the values are numbers, there is a law for them. -/
def Change.Candidate (E : Env) (C : Change) (W : World) (i : Inp) : Prop :=
  i.eligible = true ∧ i.fact ≠ C.target ∧ (W i.fact).inst = none ∧ (W i.fact).after < C.after ∧
  (C.shares i.fact = true ∨ E.isImdl i.fact = true ∧ C.delta i.fact = true) ∧
  ¬ ((W i.fact).after - (W C.target).after < E.tol ∧ (W C.target).after - (W i.fact).after < E.tol) ∧
  (C.needGuard = true → (E.isImdl i.fact = false ∨ C.shares i.fact = false) → C.law i.fact = true)

instance (E : Env) (C : Change) (W : World) (i : Inp) : Decidable (C.Candidate E W i) := by
  unfold Change.Candidate; infer_instance

/-- C133: each fact that may be the cause of a change is tried, in the order of the inputs, and no other. -/
def C133_full : Prop :=
  ∀ E S (C : Change) st ts st', Numbered st → C.target < st.next → C.reduce E S st = some (ts, st') →
    ts.map Try.cause = (st.inputs.filter fun i => decide (C.Candidate E st.W i)).map Inp.fact

/-! ## Successes and failures -/

/-- `f` was tried, or is in the state of one that was, or in an instance that is in that state. -/
def Covered (W : World) (ts : List Try) (f : Nat) : Prop :=
  ∃ t ∈ ts, t.cause = f ∨ f ∈ t.new ∨ ∃ y ∈ t.new, f ∈ Extract.partsOf W y

/-- The fact may be the reason for the success: it is no axiom and no instance of a state; it came before the evidence
and not together with the goal. -/
def Success.Candidate (E : Env) (C : Success) (W : World) (i : Inp) : Prop :=
  i.eligible = true ∧ (W i.fact).inst = none ∧ (W i.fact).after < C.after ∧
  ¬ ((W i.fact).after - C.since < E.tol ∧ C.since - (W i.fact).after < E.tol)

/-- Instances have a pattern for each part, and no fact is an input twice. -/
def Sane (st : St) : Prop :=
  (st.inputs.map Inp.fact).Nodup ∧ ∀ f s, (st.W f).inst = some s → s.parts.length ≤ s.pats.length

/-- C134: when a goal succeeds that was not predicted to, each fact that may be the reason is tried, by itself or in a
state, and no other, without undefined behaviour. -/
def C134_full : Prop :=
  ∀ E S (C : Success) st, Numbered st → Sane st → C.aim < st.next → ∃ ts st', C.reduce E S st = some (ts, st') ∧
    (C.predicted = true → ts = []) ∧
    (∀ t ∈ ts, ∃ i ∈ st.inputs, i.fact = t.cause ∧ C.Candidate E st.W i) ∧
    (C.predicted = false → ∀ i ∈ st.inputs, C.Candidate E st.W i → Covered st.W ts i.fact)

/-- The input concerns the failure: it is no command, came not after the model was used, and has a value in common with
the instance of the model. -/
def Failure.Concerns (E : Env) (C : Failure) (W : World) (i : Inp) : Prop :=
  E.isCmd i.fact = false ∧ (W i.fact).after ≤ C.after ∧ C.shares i.fact = true

/-- The fact may be the reason for the failure: it is no axiom and no instance of a state, and concerns the failure, or
has attribute and value in common with a value that does. -/
def Failure.Candidate (E : Env) (C : Failure) (W : World) (is : List Inp) (i : Inp) : Prop :=
  i.eligible = true ∧ (W i.fact).inst = none ∧ (C.Concerns E W i ∨
    (E.isCmd i.fact = false ∧ (W i.fact).after ≤ C.after ∧ C.isVal i.fact = true ∧
      ∃ j ∈ is, C.Concerns E W j ∧ C.isVal j.fact = true ∧ C.like i.fact j.fact = true))

/-- C135: when a prediction fails, each fact that may be the reason is tried, by itself or in a state, and no other,
without undefined behaviour. -/
def C135_full : Prop :=
  ∀ E S (C : Failure) st, Numbered st → Sane st → ∃ ts st', C.reduce E S st = some (ts, st') ∧
    (∀ t ∈ ts, ∃ i ∈ st.inputs, i.fact = t.cause ∧ C.Candidate E st.W st.inputs i) ∧
    (∀ i ∈ st.inputs, C.Candidate E st.W st.inputs i → Covered st.W ts i.fact)

/-! ## What is sent -/

/-- The three kinds of learning. -/
inductive Kind | change (C : Change) | success (C : Success) | failure (C : Failure)

def reduce (E : Env) (S : Sigs) : Kind → St → Option (List Try × St)
  | .change C => C.reduce E S
  | .success C => C.reduce E S
  | .failure C => C.reduce E S

/-- The signatures of the models among what is sent. -/
def sigs (l : List Sent) : List Nat := l.filterMap fun x => match x with | .mdl _ s => some s | _ => none

/-- The facts that the states among what is sent are made of. -/
def stuff (l : List Sent) : List (List Nat) := l.filterMap fun x => match x with | .state _ o => some o | _ => none

/-- All that is sent, in order. -/
def all (ts : List Try) : List Sent := ts.flatMap Try.sent

/-- The models sent are new: none was known or black-listed, all are known afterwards, none is sent twice; nothing else
becomes unknown or black-listed. A requirement is sent only if its model is known. A state is sent with models that
are about it, and models are about states that were known or are sent before them. -/
structure News (S : Sigs) (st st' : St) (ts : List Try) : Prop where
  new : ∀ s ∈ sigs (all ts), ¬ Has st.base.white s ∧ ¬ Has st.base.black s ∧ Has st'.base.white s
  once : (sigs (all ts)).Nodup
  white : ∀ s, Has st.base.white s → Has st'.base.white s
  black : ∀ s, Has st'.base.black s ↔ Has st.base.black s
  grounded : ∀ t ∈ ts, t.sent ≠ [] → Has st'.base.white (S.one t.cause t.lhs)
  state : ∀ t ∈ ts, ∀ f o, .state f o ∈ t.sent → (t.lhs = f ∨ t.prem = some f) ∧ sigs t.sent ≠ []
  about : ∀ t ∈ ts, t.sent ≠ [] → ∀ f, f = t.lhs ∨ t.prem = some f → f < st.next ∨ ∃ o, t.sent.head? = some (.state f o)

/-- The signatures of a model and of a requirement for it differ. -/
def Sigs.Distinct (S : Sigs) : Prop := ∀ c l p, S.one c l ≠ S.req c l p ∧ S.one c l ≠ S.req' c l p

/-- C136: what is learned is new, complete, and sent once. -/
def C136_full : Prop :=
  ∀ E S k st ts st', S.Distinct → Numbered st → (∀ C, k = .change C → C.target < st.next) →
    reduce E S k st = some (ts, st') → News S st st' ts ∧ (stuff (all ts)).Nodup

end Verif.Learn
