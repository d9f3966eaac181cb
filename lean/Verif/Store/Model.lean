import Verif.CellList.Props
/-!
# Object identifiers, the object store, and injection

Transcription of `_Mem::load`, `_Mem::store`, `_Mem::inject`, `_Mem::inject_async`,
`_Mem::inject_new_object`, `_Mem::inject_existing_object`, `_Mem::inject_notification`
(`/repo/r_exec/mem.cpp`), of `MemStatic`/`MemVolatile`, of the jobs of
`/repo/r_exec/time_job.cpp` / `reduction_job.cpp` that inject views, and of `Object::invalidate`
(`/repo/r_exec/object.tpl.cpp`).

Objects (groups included) are addresses; the object list `objects_` is the list of
`Verif.CellList`, cell by cell.

Simplifications: what the host group does with an injected view is left out (only the fact that it
receives the view is recorded, as an event); the markers and views held by an object are left out
of `invalidate`; `deleted_` (destructor of the memory running) is false; the injection time of a
view does not change while it waits.  Jobs are taken from the queues in any order once their target
time has come (the order is the subject of `Verif.Sched`).
-/
namespace Verif.Store

/-- The data members that matter of a `Code`. -/
structure Ob where
  /-- `oid_` (uint32) -/
  oid : Nat
  /-- `storage_index_`, -1 being `none` -/
  loc : Option Nat
  /-- the descriptor of its first atom is NULL_PROGRAM -/
  null : Bool
  /-- `invalidated_` -/
  inval : Bool
deriving DecidableEq, Repr

/-- A view: object, host group and injection time. -/
structure View where
  obj : Nat
  host : Nat
  ijt : Int
deriving DecidableEq, Repr

/-- `InjectionJob` (`existing = false`) or `EInjectionJob` (`existing = true`). -/
structure Job where
  target : Int
  view : View
  existing : Bool
deriving DecidableEq, Repr

structure St where
  /-- `Now()` -/
  now : Int
  obj : Nat → Ob
  /-- `last_oid_` (int32) -/
  last : Int
  /-- `objects_` -/
  store : CellList.St Nat
  /-- `keep_invalidated_objects_` -/
  keep : Bool
  /-- `MemVolatile` rather than `MemStatic` -/
  volatile : Bool
  /-- `time_job_queue_` (injection jobs) -/
  timeQ : List Job
  /-- `reduction_job_queue_` (asynchronous injection jobs) -/
  redQ : List View

/-- What a step lets the outside see. -/
inductive Ev
  | silent
  | dropped (v : View)
  | queued (v : View)
  /-- handed to the host group; `existing` tells by which of the two functions. -/
  | injected (v : View) (existing : Bool)
  | notified (v : View)
deriving DecidableEq, Repr

def setOb (s : St) (a : Nat) (o : Ob) : St := { s with obj := fun b => if b = a then o else s.obj b }

/-- `uint32` conversion of an `int32`. -/
def toU32 (x : Int) : Nat := (x % 4294967296).toNat

/-- `int32` conversion of a `uint32`. -/
def toI32 (x : Nat) : Int := if x % 4294967296 < 2147483648 then (x % 4294967296 : Nat)
  else (x % 4294967296 : Nat) - 4294967296

/-- `_Mem::store` (mem.cpp:291-296), also the end of `MemStatic::bind` (mem.cpp:1459-1461):
`objects_.push_back(object, location); object->set_strorage_index(location)`. -/
def put (s : St) (a : Nat) : Option St :=
  match CellList.pushBackLoc s.store a with
  | some (l, st) => some (setOb { s with store := st } a { s.obj a with loc := l })
  | none => none

/-- `MemStatic::bind` (mem.cpp:1448-1463) and `MemVolatile::bind` (mem.cpp:1502-1518).  Incrementing
`INT_MAX` is undefined behaviour (`none`; for the atomic counter of `MemVolatile` it would wrap). -/
def bind (s : St) (a : Nat) : Option St :=
  if s.last ≥ 2147483647 then none
  else
    let s1 := setOb { s with last := s.last + 1 } a { s.obj a with oid := toU32 (s.last + 1) }
    if s.volatile then some s1
    else if (s.obj a).null then some s1
    else put s1 a

/-- `_Mem::inject` (mem.cpp:989-1021). -/
def inject (s : St) (v : View) : Option (St × Ev) :=
  if (s.obj v.obj).inval then some (s, .dropped v)
  else if (s.obj v.host).inval then some (s, .dropped v)
  else if (s.obj v.obj).loc.isSome then
    if v.ijt ≤ s.now then some (s, .injected v true)
    else some ({ s with timeQ := s.timeQ ++ [⟨v.ijt, v, true⟩] }, .queued v)
  else
    if v.ijt ≤ s.now then (bind s v.obj).map (·, .injected v false)
    else some ({ s with timeQ := s.timeQ ++ [⟨v.ijt, v, false⟩] }, .queued v)

/-- `_Mem::inject_async` (mem.cpp:1023-1052). -/
def injectAsync (s : St) (v : View) : Option (St × Ev) :=
  if (s.obj v.obj).inval then some (s, .dropped v)
  else if (s.obj v.host).inval then some (s, .dropped v)
  else if v.ijt ≤ s.now then some ({ s with redQ := s.redQ ++ [v] }, .queued v)
  else some ({ s with timeQ := s.timeQ ++ [⟨v.ijt, v, (s.obj v.obj).loc.isSome⟩] }, .queued v)

/-- `_Mem::inject_notification` (mem.cpp:1063-1070) and each round of `_Mem::inject_hlps`
(mem.cpp:1054-1061): the object is bound whatever its state. -/
def notify (s : St) (v : View) : Option (St × Ev) := (bind s v.obj).map (·, .notified v)

/-- `invalidated_ = 1` -/
def mark (s : St) (a : Nat) : St := setOb s a { s.obj a with inval := true }

/-- `Object::invalidate` (object.tpl.cpp:105-125) with `delete_object` (mem.cpp:1469-1481;
mem.h:966 for `MemVolatile`). -/
def invalidate (s : St) (a : Nat) : Option St :=
  if (s.obj a).inval then some s
  else
    match (s.obj a).loc with
    | none => some (mark s a)
    | some l =>
      if s.volatile || s.keep then some (mark s a)
      else
        match CellList.eraseCell s.store l with
        | some st => some { mark s a with store := st }
        | none => none

/-- The jobs' `update` (time_job.cpp:195-207 and 221-230): an `InjectionJob` calls `_Mem::inject`, an
`EInjectionJob` calls `_Mem::inject_existing_object` (mem.cpp:775-779) directly. -/
def runJob (s : St) (j : Job) : Option (St × Ev) :=
  if j.existing then some (s, .injected j.view true) else inject s j.view

inductive Op
  /-- `_Mem::inject` called from outside -/
  | submit (v : View)
  | submitAsync (v : View)
  /-- `inject_notification` or `inject_hlps` -/
  | notify (v : View)
  | invalidate (a : Nat)
  /-- time passes -/
  | advance (d : Nat)
  /-- the time core takes the k-th waiting job, whose target time has come -/
  | timeJob (k : Nat)
  /-- a reduction core takes the k-th asynchronous injection (reduction_job.cpp:115-120) -/
  | redJob (k : Nat)
deriving DecidableEq, Repr

/-- One operation; `none`: undefined behaviour, or the operation is not possible. -/
def step (s : St) : Op → Option (St × Ev)
  | .submit v => inject s v
  | .submitAsync v => injectAsync s v
  | .notify v => notify s v
  | .invalidate a => (invalidate s a).map (·, .silent)
  | .advance d => some ({ s with now := s.now + d }, .silent)
  | .timeJob k =>
    match s.timeQ[k]? with
    | none => none
    | some j => if j.target ≤ s.now then runJob { s with timeQ := s.timeQ.eraseIdx k } j else none
  | .redJob k =>
    match s.redQ[k]? with
    | none => none
    | some v => inject { s with redQ := s.redQ.eraseIdx k } v

/-- Storing the objects of an image one after the other (mem.cpp:313 and 323-326). -/
def storeAll (s : St) : List Nat → Option St
  | [] => some s
  | a :: l => match put s a with
    | some s' => storeAll s' l
    | none => none

/-- `_Mem::load` (mem.cpp:298-390), as far as identifiers and the store are concerned. The objects
come with the identifiers of the image (object.h:231-236). -/
def load (s : St) (img : List (Nat × Nat)) : Option St :=
  let s1 := { s with obj := fun b => { s.obj b with oid := (img.lookup b).getD (s.obj b).oid } }
  let highest := (img.map Prod.snd).foldl max 0
  storeAll { s1 with last := toI32 (max highest (img.length - 1)) } (img.map Prod.fst)

/-- The state of a new memory (mem.cpp:110-140, 1442): objects not yet bound have the identifier
0xFFFFFFFF (object.tpl.cpp:90-93), `null` tells which are null programs. -/
def fresh (volatile keep : Bool) (null : Nat → Bool) (now : Int) : St :=
  ⟨now, fun b => ⟨4294967295, none, null b, false⟩, -1, CellList.empty, keep, volatile, [], []⟩

/-- The object a step gave an identifier to. -/
def boundBy : Ev → Option Nat
  | .injected v false => some v.obj
  | .notified v => some v.obj
  | _ => none

end Verif.Store
