/-!
# A timed job, from the time core that takes it to the delegate that waits for it

Transcription of `TimeCore::Run` after the pop (`/repo/r_exec/time_core.cpp:102-149`) and of `DelegatedCore::Wait`
(165-210), for one job.

The clock is read, compared and the job done at one instant; between the steps the clock goes on by any amount.  A
timer may fire at any time.  What a job does is left out but for what it makes of the reference it is given, and
what it returns.  `start_core` and `shutdown_core` are `Verif.Cores`.  A time is a number; 0 is no time.
-/
namespace Verif.Timed

/-- What happens, newest first: the job is asked for at a time, or no more; it is done at a time; a delay is reported. -/
inductive Ev
  | ask (t : Option Int)
  | run (t : Int)
  | report (lag : Int)
deriving DecidableEq, Repr

/-- What `update` returns, and the time it sets, if it sets one. -/
structure Ans where
  run : Bool := true
  next : Option Int := none
deriving DecidableEq, Repr

/-- What a step finds out: whether the job is alive, what the job answers if it is done. -/
structure Env where
  alive : Bool := true
  ans : Ans := {}
deriving DecidableEq, Repr

/-- Where the job is: popped; in the loop of the time core (132-146) with a time that is not 0; waiting for a timer set for `due`, in
a delegate with `target_time`; the timer has fired; at `redo`; left. -/
inductive Loc
  | got (target : Int)
  | again (next : Int)
  | timer (due target : Int)
  | woken (target : Int)
  | redo (target : Int)
  | out
deriving DecidableEq, Repr

/-- `running`: the state is RUNNING; `stop` waits for the delegates, so that it is not again while one is there. -/
structure State where
  clock : Int
  running : Bool := true
  loc : Loc
  log : List Ev
deriving DecidableEq, Repr

/-- The clock goes on; the executive is stopped; the timer fires; the thread goes on. -/
inductive Act
  | tick (d : Nat)
  | stop
  | fire
  | go (e : Env)
deriving DecidableEq, Repr

/-- What is asked for with a value left in the reference. -/
def asked (t : Int) : Option Int := if t = 0 then none else some t

/-- The job is done, in a time core: `next_target` is 0 before (time_core.cpp:110-130, 137-145). -/
def did (s : State) (a : Ans) (lag : Option Int) : State :=
  let n := a.next.getD 0
  { s with loc := if n ≠ 0 ∧ a.run = true then .again n else .out
           log := (match lag with | none => [] | some l => [.report l]) ++ .ask (asked n) :: .run s.clock :: s.log }

/-- The job is done, in a delegate; what the reference holds before is `t` (time_core.cpp:180-181, 193, 197-198). -/
def didD (s : State) (t : Int) (a : Ans) (lag : Option Int) : State :=
  { s with loc := .redo (a.next.getD t)
           log := (match lag with | none => [] | some l => [.report l]) ++ .ask (a.next.bind asked) :: .run s.clock :: s.log }

/-- A step; `none` if the thread has to wait. -/
def go (s : State) (e : Env) : Option State :=
  match s.loc with
  | .got target =>
    -- 102-130
    if !e.alive then some { s with loc := .out }
    else if target = 0 then some (did s e.ans none)
    else if target - s.clock = 0 then some (did s e.ans none)
    else if target - s.clock > 0 then some { s with loc := .timer target target }
    else some (did s e.ans (some (-(target - s.clock))))
  | .again next =>
    -- 132-147: `next_target` is reset before the delegate is made with it
    if !e.alive then some { s with loc := .out }
    else if next - s.clock = 0 then some (did s e.ans none)
    else if next - s.clock > 0 then some { s with loc := .timer next 0 }
    else some (did s e.ans (some (-(next - s.clock))))
  | .timer _ _ => none
  | .woken target =>
    -- 174-182
    if !e.alive then some { s with loc := .out }
    else if s.running then (if s.clock < target then none else some (didD s 0 e.ans none))
    else some { s with loc := .redo target }
  | .redo target =>
    -- 184-202
    if target = 0 then some { s with loc := .out }
    else if !e.alive then some { s with loc := .out }
    else if !s.running then some { s with loc := .out }
    else if target - s.clock = 0 then some (didD s target e.ans none)
    else if target - s.clock < 0 then some (didD s target e.ans (some (-(target - s.clock))))
    else some { s with loc := .timer target target }
  | .out => none

def step (s : State) : Act → Option State
  | .tick d => some { s with clock := s.clock + d }
  | .stop => some { s with running := false }
  | .fire => match s.loc with
    | .timer _ target => some { s with loc := .woken target }
    | _ => none
  | .go e => go s e

def run : State → List Act → Option State
  | s, [] => some s
  | s, a :: as => match step s a with
    | none => none
    | some s => run s as

/-- A job popped at a time; its target is what it is asked for (0: at once). -/
def init (now target : Int) : State := { clock := now, loc := .got target, log := [.ask (some target)] }

end Verif.Timed
