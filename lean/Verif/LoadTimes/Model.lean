import Verif.Words.Model
import Verif.Upr.Model
/-!
# Shifting the times of loaded objects

`_Mem::start` adds the time of the start to the timestamps of the objects in memory, which the source code
gives relative to the start. `none` is an access outside the code or recursion without end.
-/
namespace Verif.LoadTimes
open Verif.Atom Verif.Words

/-- r_exec/mem.cpp:404-409: the new value, not beyond the greatest time. The reference is not negative. -/
def shift (ref : Int) (v : BitVec 64) : BitVec 64 :=
  if Upr.maxTime - ref ≤ v.toInt then BitVec.ofInt 64 Upr.maxTime else BitVec.ofInt 64 (v.toInt + ref)

/-- r_code/code_utils.cpp:132-136 `SetTimestamp(Atom*, timestamp)` at position `i`. -/
def setTimestampAt (c : Code) (i : Nat) (v : BitVec 64) : Option Code :=
  setInt64 (c.set i timestamp) (i + 1) v

/-- The structures whose members are visited: C_PTR, SET, OBJECT, S_SET, MARKER, OPERATOR, GROUP
(r_exec/mem.cpp:415-421). -/
def walked (d : BitVec 8) : Bool :=
  d = 0xC0 || d = 0xC1 || d = 0xC3 || d = 0xC2 || d = 0xC4 || d = 0xC5 || d = 0xC8

/-- r_exec/mem.cpp:399-428 `update_timestamps(time_reference, code, index)`; `f` bounds the depth of the
recursion. Indices are `uint16`. -/
def update (ref : Int) : Nat → Code → Nat → Option Code
  | 0, _, _ => none
  | f + 1, c, i =>
    match c[i]? with
    | none => none
    | some w =>
      if getDescriptor w = 0xC7 then
        (getInt64 c (i + 1)).bind fun v => setTimestampAt c i (shift ref v)
      else if getDescriptor w = 0x84 then update ref f c (asIndex w).toNat
      else if walked (getDescriptor w) then
        (List.range (getAtomCount w).toNat).foldlM (fun c j => update ref f c ((i + (j + 1)) % 65536)) c
      else some c

/-- r_exec/mem.cpp:430-433 `init_timestamps`, called by `start` (:452), for one object. -/
def initTimestamps (ref : Int) (f : Nat) (c : Code) : Option Code := update ref f c 0

end Verif.LoadTimes
