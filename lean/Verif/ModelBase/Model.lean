/-!
# The model base

Transcription of `ModelBase` (`/repo/r_exec/model_base.cpp:226-399`, `/repo/r_exec/model_base.h:96-158`).

Each list is an `std::unordered_set` of entries hashed by `ComputeHashCode` and compared by
`MEntry::match` (model_base.cpp:94-222).

Simplifications: two entries count as equal when they have the same `sig`, a number standing for what
`match` and the hash code look at: the code of the unpacked model without its housekeeping numbers,
the heads of the two facts and the unfolding of their contents (`match` is an equivalence on it; the
hash code depends on it, except for the low bits of the addresses of models and composite states in
`imdl` and `icst` contents: contents of equal structure but different address are taken to be
different here, as they are for the table).  The signature of an entry does not change while it is in
a list.  `pack_hlp` is `Verif.Pack`.  The lock makes each operation atomic.
-/
namespace Verif.ModelBase

/-- `MEntry`: model, signature, `touch_time_` (µs). -/
structure Entry where
  mdl : Nat
  sig : Nat
  touch : Int
deriving DecidableEq, Repr

/-- `MdlSet::find`. -/
def find (l : List Entry) (sig : Nat) : Option Entry := l.find? fun e => e.sig == sig

/-- `MdlSet::erase`. -/
def erase (l : List Entry) (sig : Nat) : List Entry := l.filter fun e => e.sig != sig

/-- `MdlSet::insert`: no effect if an equal entry is there. -/
def insert (l : List Entry) (e : Entry) : List Entry :=
  match find l e.sig with
  | some _ => l
  | none => e :: l

/-- The four lines that refresh an entry: copy, set the time, erase, insert. -/
def refresh (l : List Entry) (e : Entry) (now : Int) : List Entry :=
  insert (erase l e.sig) ⟨e.mdl, e.sig, now⟩

structure Base where
  white : List Entry
  black : List Entry
deriving DecidableEq, Repr

/-- `trim_objects` (model_base.cpp:238-251). -/
def trim (thz now : Int) (b : Base) : Base :=
  ⟨b.white, b.black.filter fun e => !decide (now - e.touch ≥ thz)⟩

/-- `check_existence(mdl)` (model_base.cpp:273-310): NULL, or a registered model. -/
def check (b : Base) (mdl sig : Nat) (now : Int) : Option Nat × Base :=
  match find b.black sig with
  | some e => (none, ⟨b.white, refresh b.black e now⟩)
  | none => match find b.white sig with
    | some e => (some e.mdl, ⟨refresh b.white e now, b.black⟩)
    | none => (some mdl, ⟨insert b.white ⟨mdl, sig, now⟩, b.black⟩)

/-- `check_existence(m0, m1, _m0, _m1)` (model_base.cpp:312-381).  `sig1'` is the signature of `m1`
once its right-hand side has been redirected to the existing `m0` (lines 340-342). -/
def checkPair (b : Base) (m0 sig0 m1 sig1 sig1' : Nat) (now : Int) : (Option Nat × Option Nat) × Base :=
  match find b.black sig0 with
  | some e => ((none, none), ⟨b.white, refresh b.black e now⟩)
  | none => match find b.white sig0 with
    | some e0 =>
      let w := refresh b.white e0 now
      match find b.black sig1' with
      | some e => ((some e0.mdl, none), ⟨w, refresh b.black e now⟩)
      | none => match find w sig1' with
        | some e => ((some e0.mdl, some e.mdl), ⟨refresh w e now, b.black⟩)
        | none =>
          -- `if (_m0 == m0)`: the existing model is another object
          ((some e0.mdl, some m1),
            ⟨insert (if e0.mdl = m0 then insert w ⟨m0, sig0, now⟩ else w) ⟨m1, sig1', now⟩, b.black⟩)
    | none => match find b.black sig1 with
      | some e => ((some m0, none), ⟨b.white, refresh b.black e now⟩)
      | none => match find b.white sig1 with
        | some e => ((some m0, some e.mdl), ⟨refresh b.white e now, b.black⟩)
        | none =>
          ((some m0, some m1), ⟨insert (insert b.white ⟨m0, sig0, now⟩) ⟨m1, sig1, now⟩, b.black⟩)

/-- `register_mdl_failure` (model_base.cpp:383-390). -/
def failure (b : Base) (mdl sig : Nat) (now : Int) : Base :=
  ⟨erase b.white sig, insert b.black ⟨mdl, sig, now⟩⟩

/-- `register_mdl_timeout` (model_base.cpp:392-398). -/
def timeout (b : Base) (sig : Nat) : Base := ⟨erase b.white sig, b.black⟩

/-- One operation. -/
inductive Op
  | check (mdl sig : Nat) (now : Int)
  | pair (m0 sig0 m1 sig1 sig1' : Nat) (now : Int)
  | failure (mdl sig : Nat) (now : Int)
  | timeout (sig : Nat)
  | trim (now : Int)
deriving DecidableEq, Repr

def step (thz : Int) (b : Base) : Op → Base
  | .check m s now => (check b m s now).2
  | .pair m0 s0 m1 s1 s1' now => (checkPair b m0 s0 m1 s1 s1' now).2
  | .failure m s now => failure b m s now
  | .timeout s => timeout b s
  | .trim now => trim thz now b

def run (thz : Int) (b : Base) : List Op → Base
  | [] => b
  | op :: l => run thz (step thz b op) l

end Verif.ModelBase
