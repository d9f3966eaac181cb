import Mathlib.Data.List.Basic
/-!
# Overlays of programs and anti-programs

What a pattern and an input have in common is left open: `try` stands for `_match`
(r_exec/pgm_overlay.cpp:730-778) on the code and values of the overlay as last committed, of which `S`
is the type. That rolling back restores that state is the subject of C39; here it is assumed.
Patterns are named by their index in the program (a number), inputs by a number.
-/
namespace Verif.Pgm

/-- `MatchResult` with the state after a success. -/
inductive Res (S : Type) where
  | success (s : S)
  | failure
  | impossible

/-- What the program says. -/
structure Lang (S : Type) where
  /-- r_exec/pgm_overlay.cpp:730-755 `_match`; the input is already in the list of views -/
  try_ : S → List Nat → Nat → Nat → Res S
  /-- :780-796 `check_guards` -/
  guards : S → Bool
  /-- :210-514 `inject_productions` -/
  inject : S → Bool

/-- `PGMOverlay` (r_exec/pgm_overlay.h:135-190). `used` records which input was matched with which
pattern; the program does not keep it. -/
structure Overlay (S : Type) where
  /-- `input_pattern_indices_` -/
  rem : List Nat
  /-- `input_views_` -/
  views : List Nat
  st : S
  /-- `birth_time_`, 0 before the first match -/
  birth : Nat
  invalid : Bool
  used : List (Nat × Nat)
deriving DecidableEq

/-- r_exec/pgm_overlay.cpp:535-539, 569-578 (constructor, `init`). -/
def fresh {S : Type} (pats : List Nat) (s : S) : Overlay S := ⟨pats, [], s, 0, false, []⟩

/-- The loop of `match` (r_exec/pgm_overlay.cpp:711-725) over the remaining patterns: the first one
that succeeds. A failure rolls back and the loop goes on, as it does when the match is impossible. -/
def tryAll {S : Type} (l : Lang S) (s : S) (views : List Nat) (i : Nat) : List Nat → Option (Nat × S)
  | [] => none
  | p :: ps =>
    match l.try_ s (views ++ [i]) i p with
    | .success s' => some (p, s')
    | .failure => tryAll l s views i ps
    | .impossible => tryAll l s views i ps

/-- The overlay after the input `i` matched the pattern `p` (r_exec/pgm_overlay.cpp:708, 715-718). -/
def Overlay.take {S : Type} (o : Overlay S) (i p : Nat) (s' : S) : Overlay S :=
  ⟨o.rem.erase p, o.views ++ [i], s', o.birth, o.invalid, o.used ++ [(i, p)]⟩

/-- r_exec/pgm_overlay.cpp:706-728 `match`: on success the input stays on the list of views and the
pattern is removed; otherwise the input is popped. -/
def Overlay.matchInput {S : Type} (l : Lang S) (o : Overlay S) (i : Nat) : Option (Nat × Overlay S) :=
  match tryAll l o.st o.views i o.rem with
  | none => none
  | some (p, s') => some (p, o.take i p s')

/-- r_exec/pgm_overlay.cpp:541-564 copy constructor, from the overlay `o'` after it matched pattern
`p`: the pattern is put back at the end, the last view is left out, the code is as last committed
(that is as in `o`), the birth time is that of `o'`. -/
def Overlay.offspring {S : Type} (o o' : Overlay S) (p : Nat) : Overlay S :=
  { rem := o'.rem ++ [p], views := o'.views.dropLast, st := o.st, birth := o'.birth,
    invalid := false, used := o'.used.dropLast }

/-- Result of `reduce`: the overlay itself, its offspring, the complete overlay whose guards were
checked, and whether the productions were injected. -/
structure Red (S : Type) where
  this : Overlay S
  off : Option (Overlay S)
  full : Option (Overlay S)
  fired : Bool

/-- r_exec/pgm_overlay.cpp:670-704 `PGMOverlay::reduce`. -/
def Overlay.reduce {S : Type} (l : Lang S) (o : Overlay S) (now i : Nat) : Red S :=
  match o.matchInput l i with
  | none => ⟨o, none, none, false⟩
  | some (p, o') =>
    if o'.rem.length = 0 then
      ⟨{ o' with invalid := true }, some (o.offspring o' p), some o', l.guards o'.st && l.inject o'.st⟩
    else
      ⟨{ o' with birth := if o'.birth = 0 then now else o'.birth }, some (o.offspring o' p), none, false⟩

/-- An input being reduced; `dead` says which inputs are invalidated at that time. -/
structure Event where
  now : Nat
  inp : Nat
  dead : Nat → Bool

/-- r_exec/pgm_overlay.cpp:580-592 `is_invalidated`: a volatile overlay goes with any of its inputs. -/
def Overlay.gone {S : Type} (o : Overlay S) (vol : Bool) (dead : Nat → Bool) : Bool :=
  o.invalid || (vol && o.views.any dead)

/-- Settings of the program: `IPGM_TSC` in microseconds, `IPGM_RES` (volatile), `run_once_`. -/
structure Cfg where
  tsc : Nat
  vol : Bool
  once : Bool

/-- State during the loop over the overlays. -/
structure Acc (S : Type) where
  kept : List (Overlay S)
  off : List (Overlay S)
  full : List (Overlay S)
  fired : List (Overlay S)
  alive : Bool

/-- r_exec/pgm_controller.cpp:155-203 `PGMController::reduce`, the loop (both versions: the time scope
is only checked when it is not 0). The rest of the list is left as it is once the controller is not
alive any more. -/
def loop {S : Type} (l : Lang S) (c : Cfg) (e : Event) : List (Overlay S) → Acc S
  | [] => ⟨[], [], [], [], true⟩
  | o :: os =>
    if o.gone c.vol e.dead then loop l c e os
    else if 0 < c.tsc ∧ 0 < o.birth ∧ c.tsc < e.now - o.birth then loop l c e os
    else
      let r := o.reduce l e.now e.inp
      let f := if r.fired then r.full.toList else []
      if r.fired && c.once then ⟨r.this :: os, r.off.toList, r.full.toList, f, false⟩
      else
        let a := loop l c e os
        ⟨r.this :: a.kept, r.off.toList ++ a.off, r.full.toList ++ a.full, f ++ a.fired, a.alive⟩

/-- `PGMController`. -/
structure Ctl (S : Type) where
  overlays : List (Overlay S)
  /-- complete overlays whose guards were checked, so far -/
  full : List (Overlay S)
  /-- those that injected their productions, so far -/
  fired : List (Overlay S)
  alive : Bool

/-- r_exec/pgm_controller.cpp:137-140 constructor. -/
def Ctl.init {S : Type} (pats : List Nat) (s : S) : Ctl S := ⟨[fresh pats s], [], [], true⟩

/-- One input: r_exec/overlay.cpp:241-245 `_take_input` and the reduction job check that the controller
is alive and the input is valid; offspring go to the front, the last one first. -/
def Ctl.step {S : Type} (l : Lang S) (c : Cfg) (x : Ctl S) (e : Event) : Ctl S :=
  if !x.alive || e.dead e.inp then x
  else
    let a := loop l c e x.overlays
    ⟨a.off.reverse ++ a.kept, x.full ++ a.full, x.fired ++ a.fired, a.alive⟩

def run {S : Type} (l : Lang S) (c : Cfg) (x : Ctl S) (es : List Event) : Ctl S :=
  es.foldl (Ctl.step l c) x

/-! ## Anti-programs -/

/-- Outcome of `AntiPGMOverlay::reduce`. -/
inductive ARed (S : Type) where
  /-- all patterns and the guards match: `restart` was called -/
  | restart
  | goOn (this : Overlay S) (off : Option (Overlay S))

/-- r_exec/pgm_overlay.cpp:818-846 `AntiPGMOverlay::reduce`. When the guards fail the code is rolled
back; the list of views and the list of remaining patterns stay as they are after the match. -/
def Overlay.areduce {S : Type} (l : Lang S) (o : Overlay S) (i : Nat) : ARed S :=
  match o.matchInput l i with
  | none => .goOn o none
  | some (p, o') =>
    if o'.rem.length = 0 then
      if l.guards o'.st then .restart else .goOn { o' with st := o.st } none
    else .goOn o' (some (o.offspring o' p))

/-- r_exec/pgm_controller.cpp:226-256 `AntiPGMController::reduce`, the loop; `none` when an overlay
matched and the controller is restarted. -/
def aloop {S : Type} (l : Lang S) (c : Cfg) (e : Event) :
    List (Overlay S) → Option (List (Overlay S) × List (Overlay S))
  | [] => some ([], [])
  | o :: os =>
    if o.gone c.vol e.dead then aloop l c e os
    else
      match o.areduce l e.inp with
      | .restart => none
      | .goOn this off =>
        match aloop l c e os with
        | none => none
        | some (kept, offs) => some (this :: kept, off.toList ++ offs)

/-- `AntiPGMController`; `jobs` are the instants of the signalling jobs it has pending. -/
structure ACtl (S : Type) where
  overlays : List (Overlay S)
  /-- `successful_match_` -/
  flag : Bool
  jobs : List Nat
  alive : Bool
  /-- instants of complete matches, so far -/
  matches_ : List Nat
  /-- instants at which the productions were injected, so far -/
  fires : List Nat

/-- The controller when it is activated at `now`: r_exec/pgm_controller.cpp:211-214, and the first
signalling job, r_exec/group.cpp:642, 949 and r_exec/mem.cpp:481. -/
def ACtl.init {S : Type} (c : Cfg) (pats : List Nat) (s : S) (now : Nat) : ACtl S :=
  ⟨[fresh pats s], false, [now + c.tsc], true, [], []⟩

/-- What happens to the controller. -/
inductive AEvent where
  | input (e : Event)
  /-- the signalling job due at that instant is run, on time; nothing happens if there is none -/
  | signal (t : Nat)

/-- One event; `none` is undefined behaviour. Input: r_exec/pgm_controller.cpp:226-256, with `restart`
(280-284; the anti-program and its group are taken to be active and salient, so that a job is pushed),
which sets the flag; the loop then resets the overlay, drops the others and clears the flag. Signal:
r_exec/time_job.cpp:151-160 and r_exec/pgm_controller.cpp:258-278; `front()` of an empty list is
undefined. The reset of the overlay is r_exec/pgm_overlay.h:175-181; it does not touch
`invalidated_`, which is clear (`goOn` never sets it). -/
def ACtl.step {S : Type} (l : Lang S) (c : Cfg) (pats : List Nat) (s0 : S) (x : ACtl S) :
    AEvent → Option (ACtl S)
  | .input e =>
    if !x.alive || e.dead e.inp then some x
    else
      match aloop l c e x.overlays with
      | none =>
        some { x with overlays := [fresh pats s0], flag := false, jobs := x.jobs ++ [e.now + c.tsc],
                      matches_ := x.matches_ ++ [e.now] }
      | some (kept, offs) => some { x with overlays := offs.reverse ++ kept }
  | .signal t =>
    if t ∉ x.jobs then some x
    else
    let x := { x with jobs := x.jobs.erase t }
    if !x.alive then some x
    else if x.flag then some { x with flag := false, alive := !c.once }
    else
      match x.overlays with
      | [] => none
      | _ :: os =>
        some { x with fires := x.fires ++ [t], alive := !c.once,
                      overlays := if c.once then fresh pats s0 :: os else [fresh pats s0] }

def arun {S : Type} (l : Lang S) (c : Cfg) (pats : List Nat) (s0 : S) :
    ACtl S → List AEvent → Option (ACtl S)
  | x, [] => some x
  | x, e :: es => (x.step l c pats s0 e).bind fun x' => arun l c pats s0 x' es

end Verif.Pgm
