import Verif.Prods.Model
/-!
# What a program does (C141 to C143)
-/
namespace Verif.Prods

/-- The object an argument of inj or eje stands for. -/
def Arg.obj : Arg → Nat
  | .ref o => o
  | .build o _ => o

/-- mod and set: a value of a view is changed by the view's group, others at once; what is no value of an
object is left alone. -/
def wantedChange (isSet : Bool) (m : Nat) (v : Int) : Target → List Ev
  | .view g oid => [.pend isSet g oid m v]
  | .object o => [.change isSet o m v]
  | .group g => [.changeGroup isSet g m v]
  | .null => []
  | .undefined => []

/-- What a command is meant to do. -/
def wanted (p : Pgm) (c : Clock) : Cmd → List Ev
  | .inject a (some v) => [.inject a.obj v p.host]
  | .inject _ none => []
  | .eject a v n => [.eject a.obj v n]
  | .mod t m v => wantedChange false m v t
  | .set t m v => wantedChange true m v t
  | .prb heard msg => if heard then [.probe msg] else []
  | .stop => [.stop]
  | .device d (some e) => [.device d, .fact (cmdFact c e false) p.stdin p.host]
  | .device d none => [.device d]
  | .todo => []
  | .unknown => []
  | .other => []

/-- There is something the command could do. -/
def Cmd.feasible : Cmd → Bool
  | .unknown => false
  | .mod .undefined _ _ => false
  | _ => true

/-- The productions can be computed. -/
def Pgm.computes (p : Pgm) : Prop := p.red = some true ∨ (p.red = none ∧ ∀ q ∈ p.prods, q.ok = true)

def Ev.isNote : Ev → Bool
  | .notify .. => true
  | _ => false

/-- What happened apart from the notification. -/
def effects (evs : List Ev) : List Ev := evs.filter fun e => !e.isNote

/-- C141: a program does all its commands, in order, if its productions can be computed and all of them
carried out; otherwise it does nothing. -/
def C141_full : Prop :=
  ∀ (p : Pgm) (c : Clock), ∃ ok evs, injectProductions p c = .ret ok evs ∧
    (ok = true ↔ p.computes ∧ ∀ q ∈ p.prods, q.cmd.feasible = true) ∧
    (ok = true → effects evs = p.prods.flatMap fun q => wanted p c q.cmd) ∧
    (ok = false → evs = [])

/-- A line of a reduction marker. -/
inductive Entry
  | cmd (q : Prod)
  | fact (f : Fact)

/-- What is to be reported: injections with a view, ejections, and commands to devices with the fact that
they were, or were not, carried out. -/
def reported (c : Clock) (q : Prod) : List Entry :=
  match q.cmd with
  | .inject _ (some _) => [.cmd q]
  | .eject .. => [.cmd q]
  | .device _ (some e) => [.cmd q, .fact (cmdFact c e false)]
  | .device d none => [.cmd q, .fact (cmdFact c d true)]
  | _ => []

/-- The word `x` of a marker stands for an entry: it points to a copy of the command, made with references the marker
has, or refers to the fact. -/
def Stands (mk : Mk) (x : Cell) : Entry → Prop
  | .cmd q => ∃ b rs, x = .iptr b ∧ rs ++ (q.copy b rs).2 <+: mk.refs ∧
      ∀ (j : Nat) (h : j < (q.copy b rs).1.length), mk.code (b + j) = (q.copy b rs).1[j]
  | .fact f => ∃ r, x = .rptr r ∧ mk.refs[r]? = some (.fact f)

/-- The marker is one of the program `p`, its inputs and the entries. -/
def Reads (p : Pgm) (mk : Mk) (es : List Entry) : Prop :=
  mk.code 0 = .marker ∧ (mk.code 1 = .rptr 0 ∧ mk.refs[0]? = some (.obj p.ipgm)) ∧
  (∃ a, mk.code 2 = .iptr a ∧ mk.code a = .set p.inputs.length ∧
    ∀ (i : Nat) (h : i < p.inputs.length), ∃ r, mk.code (a + 1 + i) = .rptr r ∧ mk.refs[r]? = some (.obj p.inputs[i])) ∧
  ∃ a, mk.code 3 = .iptr a ∧ mk.code a = .set es.length ∧
    ∀ (i : Nat) (h : i < es.length), Stands mk (mk.code (a + 1 + i)) es[i]

/-- The notifications among the events. -/
def notes (evs : List Ev) : List (Mk × Nat × Nat) := evs.filterMap fun
  | .notify m o g => some (m, o, g)
  | _ => none

/-- C142: a program that asks for it, in a group with notification groups, reports what it did, if there
is something to report: one marker, in each notification group. -/
def C142_full : Prop :=
  ∀ (p : Pgm) (c : Clock) (evs : List Ev), injectProductions p c = .ret true evs →
    (p.nfr = true ∧ p.prods.flatMap (reported c) ≠ [] →
      ∃ mk, notes evs = p.ntf.map (fun g => (mk, p.host, g)) ∧ Reads p mk (p.prods.flatMap (reported c))) ∧
    (¬ (p.nfr = true ∧ p.prods.flatMap (reported c) ≠ []) → notes evs = [])

/-- The fact lasts for the rest of the frame: from now on, though not before twice the tolerance has passed
since the frame began, until the next frame. -/
def Fact.fits (c : Clock) (f : Fact) : Prop :=
  ∃ n : Nat, c.ref + n * c.period ≤ c.now ∧ c.now < c.ref + (n + 1) * c.period ∧
    c.now ≤ f.after ∧ c.ref + n * c.period + 2 * c.tol ≤ f.after ∧
    (f.after = c.now ∨ f.after = c.ref + n * c.period + 2 * c.tol) ∧
    f.before = c.ref + (n + 1) * c.period ∧ f.after < f.before

/-- C143: a command the device carries out is followed by a fact in stdin, about what the device carries
out, that lasts for the rest of the frame; one it refuses is followed by none; and these are all the
facts there are. The tolerance is less than half of the sampling period. -/
def C143_statement : Prop :=
  ∀ (p : Pgm) (c : Clock) (ok : Bool) (evs : List Ev), injectProductions p c = .ret ok evs →
    0 ≤ c.tol → 2 * c.tol < c.period → c.ref ≤ c.now →
    (∀ l d r, evs = l ++ .device d :: r →
      ∃ q ∈ p.prods, (∃ x f r', q.cmd = .device d (some x) ∧ r = .fact f p.stdin p.host :: r' ∧ f.about = x ∧ f.anti = false ∧ f.fits c) ∨
        (q.cmd = .device d none ∧ ∀ f g o r', r ≠ .fact f g o :: r')) ∧
    (∀ l f g o r, evs = l ++ .fact f g o :: r → ∃ l' d, l = l' ++ [.device d] ∧ ∃ q ∈ p.prods, q.cmd = .device d (some f.about))

end Verif.Prods
