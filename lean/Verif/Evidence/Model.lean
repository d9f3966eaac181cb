import Verif.Match.Model
/-!
# Evidence

Transcription of the `_Fact` construction, polarity, timing and evidence functions
(r_exec/factory.h:176-183, factory.cpp:199-221, 235-262, 377-483) over the heap of `Match`.
`none` is undefined behaviour or fuel exhausted, as in `Match`.
-/
namespace Verif.Evidence
open Verif.Atom Verif.Words Verif.Match

/-- `MatchResult` (r_exec/binding_map.h:238-242). -/
inductive MatchResult
  | positive | negative | failure
  deriving DecidableEq, Repr

/-- `_Fact::_Fact(opcode, object, after, before, confidence, psln_thr)` (factory.cpp:199-210): the
new object's code and references. `FACT_ARITY` = 5, `FACT_OBJ` = 1, `FACT_AFTER` = 2, `FACT_BEFORE`
= 3, `FACT_CFD` = 4 (replicode_defs.h:236-240). Numbers are IEEE bit patterns. -/
def newFact (opcode : BitVec 16) (object_ : Nat) (after before : BitVec 64)
    (confidence pslnThr : BitVec 32) : Option Obj :=
  let c0 : Code := []
  let c1 := put c0 0 (object opcode 5)
  let c2 := put c1 1 (rPointer 0)
  let c3 := put c2 2 (iPointer 6)
  let c4 := put c3 3 (iPointer 9)
  let c5 := put c4 4 (float confidence)
  let c6 := put c5 5 (float pslnThr)
  (setTimestamp c6 2 after).bind fun c7 =>
  (setTimestamp c7 3 before).bind fun c8 =>
  some { code := c8, refs := [object_] }

/-- `is_fact` (factory.h:176). -/
def isFact (oc : Opc) (f : Obj) : Option Bool := (f.code[0]?).map fun w => asOpcode w == oc.fact
/-- `is_anti_fact` (factory.h:177). -/
def isAntiFact (oc : Opc) (f : Obj) : Option Bool :=
  (f.code[0]?).map fun w => asOpcode w == oc.antiFact

/-- `set_opposite` (factory.h:178-183). -/
def setOpposite (oc : Opc) (f : Obj) : Option Obj :=
  (isFact oc f).map fun b =>
    { f with code := f.code.set 0 (object (if b then oc.antiFact else oc.fact) 5) }

/-- `get_after`, `get_before` (factory.cpp:485-493). -/
def getAfter (f : Obj) : Option (BitVec 64) := getTime f.code 2
def getBefore (f : Obj) : Option (BitVec 64) := getTime f.code 3

/-- 1.0f. -/
def one : BitVec 32 := 0x3F800000

/-- `get_absentee` (factory.cpp:212-221); `AntiFact`/`Fact` constructors 518-519, 539-540. -/
def getAbsentee (oc : Opc) (f : Obj) : Option Obj :=
  (isFact oc f).bind fun b =>
  (f.refs[0]?).bind fun o =>
  (getAfter f).bind fun a =>
  (getBefore f).bind fun bf =>
  newFact (if b then oc.antiFact else oc.fact) o a bf one one

/-- `target->match_timings_overlap(evidence)` (factory.cpp:244-252). -/
def overlap (target evidence : Obj) : Option Bool :=
  (getAfter target).bind fun after =>
  (getBefore target).bind fun before =>
  (getAfter evidence).bind fun eAfter =>
  (getBefore evidence).map fun eBefore =>
  !(before.sle eAfter || eBefore.sle after)

/-- `target->match_timings_inclusive(evidence)` (factory.cpp:254-262). -/
def inclusive (target evidence : Obj) : Option Bool :=
  (getAfter target).bind fun after =>
  (getBefore target).bind fun before =>
  (getAfter evidence).bind fun eAfter =>
  (getBefore evidence).map fun eBefore =>
  eAfter.sle after && before.sle eBefore

/-- The MkVal case of `CounterEvidence` (factory.cpp:386-424), `none` being undefined, the value
`some false` also standing for falling through to line 438. `MK_VAL_OBJ` = 1, `MK_VAL_ATTR` = 2,
`MK_VAL_VALUE` = 3 (replicode_defs.h:190-192). -/
def counterMkVal (h : Heap) (oc : Opc) (t : Tol) (fuel l r : Nat) : Option Bool :=
  (word h l 1).bind fun lo => (word h r 1).bind fun ro =>
  (word h l 2).bind fun la => (word h r 2).bind fun ra =>
  (ref h l (asIndex lo).toNat).bind fun lobj => (ref h r (asIndex ro).toNat).bind fun robj =>
  (ref h l (asIndex la).toNat).bind fun lattr => (ref h r (asIndex ra).toNat).bind fun rattr =>
  if lobj = robj ∧ lattr = rattr then
    (word h l 3).bind fun lv => (word h r 3).bind fun rv =>
    if isFloat lv then
      if isFloat rv then some (!matchAtom t lv rv) else some false
    else if isFloat rv then some false
    else if (getDescriptor lv = 0x80 ∧ getDescriptor rv = 0x85) ∨
            (getDescriptor lv = 0x85 ∧ getDescriptor rv = 0x80) then some true
    else if getDescriptor lv ≠ getDescriptor rv then some false
    else if isWild lv then some false
    else if isRPtr lv then
      (ref h l (asIndex lv).toNat).bind fun a => (ref h r (asIndex rv).toNat).bind fun b =>
      (matchObject h oc t false fuel a b).map (! ·)
    else if isIPtr lv then
      (matchStructure h oc t false fuel l (asIndex lv).toNat r (asIndex rv).toNat).map (! ·)
    else some (!matchAtom t lv rv)
  else some false

/-- The loop of factory.cpp:430-435; `rhs->components_[i]` out of range is undefined. -/
def anyPair (f : Nat → Nat → Option Bool) : List Nat → List Nat → Option Bool
  | [], _ => some false
  | _ :: _, [] => none
  | a :: l, b :: r =>
    match f a b with
    | none => none
    | some true => some true
    | some false => anyPair f l r

/-- `_Fact::CounterEvidence` (factory.cpp:377-439). -/
def counterEvidence (h : Heap) (oc : Opc) (t : Tol) : (fuel l r : Nat) → Option Bool
  | 0, _, _ => none
  | fuel + 1, l, r =>
    (h l).bind fun ol => (h r).bind fun or =>
    (ol.code[0]?).bind fun lw => (or.code[0]?).bind fun rw =>
    if asOpcode lw = oc.ent ∨ asOpcode lw = oc.ont ∨ asOpcode lw = oc.imdl then some false
    else if lw ≠ rw then some false
    else if asOpcode lw = oc.mkVal then counterMkVal h oc t fuel l r
    else if asOpcode lw = oc.icst then
      (ol.refs[0]?).bind fun a => (or.refs[0]?).bind fun b =>
      if a ≠ b then some false
      else anyPair (counterEvidence h oc t fuel) ol.comps or.comps
    else some false

/-- `is_evidence` (factory.cpp:441-463) of the input `f` for the target `g`. -/
def isEvidence (h : Heap) (oc : Opc) (t : Tol) (fuel : Nat) (f g : Obj) : Option MatchResult :=
  (f.refs[0]?).bind fun fo => (g.refs[0]?).bind fun go =>
  (f.code[0]?).bind fun fw => (g.code[0]?).bind fun gw =>
  (matchObject h oc t false fuel fo go).bind fun m =>
  if m then
    (overlap g f).map fun o =>
      if o then (if gw = fw then .positive else .negative) else .failure
  else
    (isFact oc f).bind fun isf =>
    if isf then
      (inclusive g f).bind fun inc =>
      if inc then
        (counterEvidence h oc t fuel fo go).bind fun c =>
        if c then (isAntiFact oc g).map fun anti => if anti then .positive else .negative
        else some .failure
      else some .failure
    else some .failure

/-- `is_timeless_evidence` (factory.cpp:465-483). -/
def isTimelessEvidence (h : Heap) (oc : Opc) (t : Tol) (fuel : Nat) (f g : Obj) :
    Option MatchResult :=
  (f.refs[0]?).bind fun fo => (g.refs[0]?).bind fun go =>
  (f.code[0]?).bind fun fw => (g.code[0]?).bind fun gw =>
  (matchObject h oc t false fuel fo go).bind fun m =>
  if m then some (if gw = fw then .positive else .negative)
  else if gw = fw then
    (counterEvidence h oc t fuel fo go).bind fun c =>
    if c then (isAntiFact oc g).map fun anti => if anti then .positive else .negative
    else some .failure
  else some .failure

end Verif.Evidence
