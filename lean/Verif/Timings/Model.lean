import Verif.BindMap.Model
/-!
# Narrowing of time intervals

`BindingMap::match_timings` (r_exec/binding_map.cpp:771-808), on the code of the two values that
hold the bound interval. Instants are the signed 64-bit microsecond counts.
-/
namespace Verif.Timings
open Verif.Atom Verif.Words Verif.BindMap

/-- `Utils::GetTimestamp(const Atom*)` (code_utils.cpp:129-132). -/
def codeTime (c : Code) : Option (BitVec 64) := getInt64 c 1

/-- `Utils::SetTimestamp(Atom*, Timestamp)` (code_utils.cpp:134-138): no resizing; writing outside
the value's code is undefined. -/
def setCodeTime (c : Code) (t : BitVec 64) : Option Code :=
  if c.length = 0 then none else setInt64 (c.set 0 timestamp) 1 t

/-- Writing through `get_code()` of slot `i`: the value keeps its kind. -/
def writeTime (m : BMap) (i : Nat) (t : BitVec 64) : Option BMap :=
  match m.slots[i]? with
  | some (.bound (.struct c)) =>
    (setCodeTime c t).map fun c' => { m with slots := m.slots.set i (.bound (.struct c')) }
  | _ => none

/-- The code pointer of slot `i`, dereferenced at 0 (binding_map.cpp:773-776): undefined when the
slot is null or unbound. -/
def codeAt (m : BMap) (i : Nat) : Option Code :=
  match m.slots[i]? with
  | none => none
  | some s =>
    match getCode s with
    | some (some c) => if c.length = 0 then none else some c
    | _ => none

/-- `BindingMap::match_timings` (binding_map.cpp:771-808). Returns the verdict and the map. -/
def matchTimings (m : BMap) (after before : BitVec 64) (ai bi : Nat) : Option (Bool × BMap) :=
  (codeAt m ai).bind fun ac =>
  (codeAt m bi).bind fun bc =>
  if getDescriptor (ac.getD 0 0) ≠ 0xC7 ∨ getDescriptor (bc.getD 0 0) ≠ 0xC7 then some (false, m)
  else
  (codeTime ac).bind fun sa =>
  (codeTime bc).bind fun sb =>
  if sa.sle after then
    if before.sle sb then
      (writeTime m ai after).bind fun m1 =>
      (writeTime m1 bi before).map fun m2 => (true, m2)
    else if after.slt sb then
      (writeTime m ai after).map fun m1 => (true, m1)
    else some (false, m)
  else
    if sb.sle before then some (true, m)
    else if sa.slt before then
      (writeTime m bi before).map fun m1 => (true, m1)
    else some (false, m)

/-- Matching a collection of intervals in turn, stopping at the first failure
(`match_fwd_timings` for each input, binding_map.cpp:810-813). -/
def matchAll (m : BMap) (ai bi : Nat) : List (BitVec 64 × BitVec 64) → Option (Bool × BMap)
  | [] => some (true, m)
  | (a, b) :: l =>
    (matchTimings m a b ai bi).bind fun r =>
      if r.1 then matchAll r.2 ai bi l else some r

end Verif.Timings
