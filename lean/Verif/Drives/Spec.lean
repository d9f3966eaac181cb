import Verif.Drives.Model
/-!
# What should become of drives
-/
namespace Verif.Drives
open Verif.F32 (Arith)
open Verif.Abduce (Target Sim Bound Known)

/-- `t` is what the left-hand side says, with confidence `cfd`. -/
structure Says (b : Bound) (cfd : Rat) (t : Target) : Prop where
  obj : t.obj = .thing b.n
  sign : t.positive = b.positive
  after : t.after = b.after
  before : t.before = b.before
  cfd : t.cfd = cfd

/-- The groups in which something is shown or notified. -/
def Eff.groups : Eff → List Nat
  | .outcome g _ _ | .goal g _ _ _ | .rdx g _ _ _ _ | .result g _ _ _ _ | .absent g _ => [g]
  | .watch _ _ _ _ _ => []

/-- `g` is the group of the drives: the last output group. -/
def DriveGroup (c : Top) (g : Nat) : Prop := ∃ l, c.groups = l ++ [g]

/-- C127, the parts that hold. -/
structure C127Body (A : Arith) (c : Top) (now : Int) (K : Known) (lhs : Option (Bound × Nat)) (pat : Rat) (d : Drive) (m : Meets)
    (es : List Eff) : Prop where
  /-- nothing is done for lack of confidence, for what is no concern of the model, or if the guards fail -/
  idle : (A.mul c.rate d.cfd ≤ c.thr ∨ m = .no ∨ lhs = none) → es = []
  /-- what is known is the outcome of the drive, shown in the group of the drives and nowhere else -/
  known : ∀ b i t e ok, c.thr < A.mul c.rate d.cfd → m ≠ .no → lhs = some (b, i) → Says b pat t → K.seen t = some (e, ok) →
    ∃ g, DriveGroup c g ∧ es = [.outcome g d.id ok]
  /-- what is not is made a goal, followed until its end; it is simulated first if there is time; it is shown once in the
  group of the model, unless it is predicted with more confidence -/
  unknown : ∀ b i t t', c.thr < A.mul c.rate d.cfd → m ≠ .no → lhs = some (b, i) → Says b pat t → K.seen t = none →
    Says b (A.store (A.mul c.rate d.cfd)) t' → ∃ s, s.mode = .root ∧ s.sup = d.id ∧ s.root = c.id ∧
      s.thz = c.thz now t'.before ∧
      (∀ g x ok, Eff.outcome g x ok ∉ es) ∧
      (∀ e, K.foreseen t' = some (e, true) → es = [.watch t' s t'.before (now + s.thz) (some e)]) ∧
      ((∀ e, K.foreseen t' ≠ some (e, true)) → .watch t' s t'.before (now + s.thz) none ∈ es ∧
        (∃ res, .goal c.host t' s res ∈ es) ∧
        (es.filter (fun e => match e with | .goal .. => true | _ => false)).length = 1 ∧
        ∀ g ∈ c.groups.dropLast, .rdx g i d.id t' s ∈ es)

/-- C127: a drive is pursued. What is shown lives until the end of the target; the group of the drives is told the
outcomes of drives and nothing else. -/
structure C127At (A : Arith) (c : Top) (now : Int) (K : Known) (lhs : Option (Bound × Nat)) (pat : Rat) (d : Drive) (m : Meets)
    (es : List Eff) : Prop extends C127Body A c now K lhs pat d m es where
  lives : ∀ g t s res, .goal g t s res ∈ es → res = Lifetime.goalRes c.ref c.upr now (t.before - now)
  quiet : ∀ g, DriveGroup c g → g ∉ c.groups.dropLast → g ≠ c.host → ∀ e ∈ es, g ∈ e.groups → ∃ x ok, e = .outcome g x ok

def C127_full : Prop :=
  ∀ A c now K lhs pat d m, ∃ es, reduceDrive A c now K lhs pat d m = some es ∧ C127At A c now K lhs pat d m es

/-- C128: the outcome of the goal for a drive is shown, with the evidence or with the absence of the target, in every
output group but that of the drives, and the outcome of the drive in that one. -/
structure C128At (c : Top) (goal drive : Nat) (success : Bool) (evidence : Option Nat) (es : List Eff) : Prop where
  drives : ∀ g x ok, .outcome g x ok ∈ es ↔ DriveGroup c g ∧ x = drive ∧ ok = success
  goals : ∀ g x ok ev, (∃ res, .result g x ok ev res ∈ es) ↔ g ∈ c.groups.dropLast ∧ x = goal ∧ ok = success ∧ ev = evidence
  absent : ∀ g x, .absent g x ∈ es ↔ g ∈ c.groups.dropLast ∧ x = goal ∧ success = false ∧ evidence = none
  nothing : ∀ e ∈ es, (∃ g x ok, e = .outcome g x ok) ∨ (∃ g x ok ev res, e = .result g x ok ev res) ∨ ∃ g x, e = .absent g x

def C128_full : Prop :=
  ∀ c now goal drive success evidence, ∃ es, goalOutcome c now goal drive success evidence = some es ∧
    C128At c goal drive success evidence es

/-! ## Histories -/

/-- How often an outcome of `d` was shown. -/
def times (w : World) (d : Nat) : Nat := (w.told.filter (fun x => x.1 == d)).length

/-- The event shows the outcome `b` of drive `d` for good reason: it was known when the drive arrived; or, for one of
the goals made for it, there is an evidence, or a counter-evidence, or the time is over. -/
def Reason (w w' : World) (e : Ev) (d : Nat) (b : Bool) : Prop :=
  e = .drive d (.known b) ∨
  ∃ i h x, e = .mon i x ∧ w.hunts[i]? = some h ∧ h.drive = d ∧
    ((b = true ∧ ∃ t f, x = .input t (.actual false .positive f) ∧ ¬ (f = true ∧ h.p.antiTarget = true)) ∨
     (b = false ∧ ∃ t f, x = .input t (.actual false .negative f)) ∨
     (b = false ∧ (∃ t k, x = .fire t k) ∧ ∃ h', w'.hunts[i]? = some h' ∧ h.p.deadline ≤ h'.s.clock))

/-- The monitors are monitors of goals, with a deadline. -/
def Sane (es : List Ev) : Prop := ∀ d p, .drive d (.pursue p) ∈ es → p.kind = .goal ∧ 0 < p.deadline

/-- Nobody else stops the drive, its goals or the models. -/
def Undisturbed (d : Nat) (es : List Ev) : Prop :=
  ∀ e ∈ es, e ≠ .gone d ∧ ∀ i t, e ≠ .mon i (.gone t) ∧ e ≠ .mon i (.power t false)

/-- Uninterrupted events, one after the other. -/
def interleave (es : List Ev) : List Phase := es.flatMap fun e => [.look 0 e, .act 0 e]

/-- C129: the outcome of a drive is shown once at most, for good reason, and is shown when a goal made for it has run
its course, unless somebody else interferes. -/
def C129_full : Prop :=
  (∀ ph d, times (fine ph) d ≤ 1) ∧
  (∀ es e, Sane es → (run (es ++ [e])).told = (run es).told ∨
    ∃ d b, (run (es ++ [e])).told = (d, b) :: (run es).told ∧ Reason (run es) (run (es ++ [e])) e d b) ∧
  (∀ es h, Sane es → h ∈ (run es).hunts → Undisturbed h.drive es → h.s.jobs = [] → 0 < times (run es) h.drive)

end Verif.Drives
