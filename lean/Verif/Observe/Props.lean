import Verif.Observe.Spec
import Verif.Words.Props
import Verif.Atom.Lemmas
/-!
# Proofs of C102 and C103
-/
namespace Verif.Observe
open Verif.Atom Verif.Words

/-! ## Words -/

theorem of_struct (t : Ty) (op : BitVec 16) (n : BitVec 8) (ho : op.toNat < 4096) :
    getDescriptor (struct_ t op n) = BitVec.ofNat 8 t.num ∧ asOpcode (struct_ t op n) = op := by
  have h := struct_toNat t op n
  have hn := n.isLt
  constructor <;> apply BitVec.eq_of_toNat_eq
  · rw [getDescriptor_toNat, h, BitVec.toNat_ofNat]; omega
  · rw [asOpcode_toNat, h]; omega

theorem count_of (t : Ty) (op : BitVec 16) (n : BitVec 8) (ho : op.toNat < 4096)
    (ht : t = .OBJECT ∨ t = .MARKER ∨ t = .S_SET) : getAtomCount (struct_ t op n) = n := by
  have hd := (of_struct t op n ho).1
  have hl : ((struct_ t op n) &&& 0x000000FF#32).setWidth 8 = n :=
    deviceID_eq _ _ (by rw [struct_toNat]; have := n.isLt; omega)
  unfold getAtomCount
  rw [hd]
  rcases ht with h | h | h <;> subst h <;> exact hl

theorem of_set (n : BitVec 8) : getDescriptor (set n) = 0xC1 ∧ getAtomCount (set n) = n := by
  have h := set_toNat n
  have hn := n.isLt
  have hd : getDescriptor (set n) = 0xC1 := by
    apply BitVec.eq_of_toNat_eq
    rw [getDescriptor_toNat, h]; simp; omega
  refine ⟨hd, ?_⟩
  unfold getAtomCount
  rw [hd]
  exact deviceID_eq _ _ (by rw [h]; omega)

theorem of_string (n : BitVec 8) : getDescriptor (string n) = 0xC6 := by
  have h := string_toNat n
  have hs := stringBlocks_toNat n
  have hn := n.isLt
  apply BitVec.eq_of_toNat_eq
  rw [getDescriptor_toNat, h]; simp; omega

theorem of_rPointer (k : Nat) (h : k < 4096) : getDescriptor (rPointer (BitVec.ofNat 16 k)) = 0x85 ∧
    (asIndex (rPointer (BitVec.ofNat 16 k))).toNat = k := by
  have hp : (rPointer (BitVec.ofNat 16 k)).toNat = _ := ptr_toNat .R_PTR (BitVec.ofNat 16 k)
  rw [BitVec.toNat_ofNat] at hp
  have hv : Ty.num .R_PTR = 0x85 := rfl
  constructor
  · apply BitVec.eq_of_toNat_eq
    rw [getDescriptor_toNat, hp]; simp; omega
  · rw [asIndex_toNat, hp]; omega

/-! ## Lists -/

theorem put_end (c : Code) (w : Word) : Words.put c c.length w = c ++ [w] := by
  apply List.ext_getElem?
  intro j
  by_cases hj : j < c.length
  · rw [put_get _ _ _ _ (by omega) hj, List.getElem?_append_left hj]
  · by_cases he : j = c.length
    · subst he; rw [put_get_self]; simp
    · have h1 : (Words.put c c.length w).length = c.length + 1 := by rw [length_put]; omega
      rw [List.getElem?_eq_none (by omega), List.getElem?_eq_none (by simp; omega)]

theorem putAll_eq (ws : List Word) : ∀ (o : Obj) (i : Nat), o.code.length = i →
    putAll o i ws = ⟨o.code ++ ws, o.refs⟩ := by
  induction ws with
  | nil => intro o i _; simp [putAll]
  | cons w ws ih =>
    intro o i hi
    rw [putAll, ih _ _ (by simp only [Obj.put, length_put]; omega)]
    subst hi
    simp only [Obj.put, put_end, List.append_assoc, List.singleton_append]

/-- The words that refer to references `k` on. -/
def refWords (k n : Nat) : List Word := (List.range' k n).map fun i => rPointer (BitVec.ofNat 16 i)

theorem setRef_end (o : Obj) (r : Option Nat) : o.setRef o.refs.length r = ⟨o.code, o.refs ++ [r]⟩ := by
  simp [Obj.setRef]

theorem putRefs_eq (os : List (Option Nat)) : ∀ (o : Obj) (i : Nat), o.code.length = i →
    putRefs o i os = ⟨o.code ++ refWords o.refs.length os.length, o.refs ++ os⟩ := by
  induction os with
  | nil => intro o i _; simp [putRefs, refWords]
  | cons r os ih =>
    intro o i hi
    have h1 : (o.put i (rPointer (BitVec.ofNat 16 o.refs.length))).setRef o.refs.length r =
        ⟨o.code ++ [rPointer (BitVec.ofNat 16 o.refs.length)], o.refs ++ [r]⟩ := by
      have := setRef_end (o.put i (rPointer (BitVec.ofNat 16 o.refs.length))) r
      rw [show (o.put i (rPointer (BitVec.ofNat 16 o.refs.length))).refs = o.refs from rfl] at this
      rw [this]
      subst hi
      simp only [Obj.put, put_end]
    rw [putRefs, h1, ih _ _ (by simp; omega)]
    simp [refWords, List.range'_succ]

/-! ## Markers, facts and views -/

theorem five : (asIndex (iPointer 5#16)).toNat = 5 := by decide
theorem six : (asIndex (iPointer 6#16)).toNat = 6 := by decide
theorem seven : (asIndex (iPointer 7#16)).toNat = 7 := by decide
theorem nine : (asIndex (iPointer 9#16)).toNat = 9 := by decide

theorem marked_eq (mkVal : BitVec 16) (obj prop : Option Nat) (v : Word) :
    marked mkVal obj prop v = ⟨[marker mkVal 4, rPointer 0, rPointer 1, v, one], [obj, prop]⟩ := by
  simp [marked, Obj.put, Obj.setRef, Words.put, grow]

theorem markedAt_eq (mkVal : BitVec 16) (obj prop : Option Nat) (v h : Word) :
    (marked mkVal obj prop v).put 5 h = ⟨[marker mkVal 4, rPointer 0, rPointer 1, v, one, h], [obj, prop]⟩ := by
  simp [marked, Obj.put, Obj.setRef, Words.put, grow]

theorem factOf_eq (op : BitVec 16) (id : Nat) (a b : BitVec 64) :
    factOf op id a b = some ⟨[Atom.object op 5, rPointer 0, iPointer 6, iPointer 9, one, one,
      timestamp, hi32 a, lo32 a, timestamp, hi32 b, lo32 b], [some id]⟩ := by
  simp [factOf, setTimestamp, setInt64, Obj.put, Words.put, grow, target, six, nine]

theorem viewOf_eq (op : BitVec 16) (sync : Sync) (t : BitVec 64) (host org : Option Nat) (o : Obj) :
    viewOf op sync t host org o = some ⟨[sSet op 6, float sync.bits, iPointer 7, one, one, rPointer 0,
      if org.isSome then rPointer 1 else nil, timestamp, hi32 t, lo32 t], host, org, o⟩ := by
  simp [viewOf, setTimestamp, setInt64, Words.put, grow, target, seven]

theorem pointsTo_tail (p : List Word) (hp : p.length = 6) (h3 : p[3]? = some (iPointer 5)) (h : Word)
    (h5 : p[5]? = some h) (ws : List Word) (hc : (getAtomCount h).toNat = ws.length) :
    PointsTo (p ++ ws) 3 h ws := by
  refine ⟨iPointer 5, ?_, by decide, ?_, hc, ?_⟩
  · rw [List.getElem?_append_left (by omega), h3]
  · rw [show (asIndex (iPointer 5)).toNat = 5 by decide, List.getElem?_append_left (by omega), h5]
  · intro k _
    rw [show (asIndex (iPointer 5)).toNat = 5 by decide, List.getElem?_append_right (by omega), hp]
    congr 1; omega

/-- The first five words of a marker are as they should be. -/
theorem says_of (O : Opc) (hO : O.mkVal.toNat < 4096) (obj prop : Option Nat) (w : Word) (ws : List Word)
    (rs : List (Option Nat)) (v : Val)
    (hr : Reads ⟨[marker O.mkVal 4, rPointer 0, rPointer 1, w, one] ++ ws, [obj, prop] ++ rs⟩ v) :
    Says O ⟨[marker O.mkVal 4, rPointer 0, rPointer 1, w, one] ++ ws, [obj, prop] ++ rs⟩ obj prop v := by
  have h := of_struct .MARKER O.mkVal 4 hO
  have hc := count_of .MARKER O.mkVal 4 hO (by simp)
  refine ⟨⟨_, rfl, h.1, h.2, by rw [marker, hc]; rfl⟩, ?_, ?_, hr, ?_⟩
  · exact ⟨rPointer 0, rfl, by decide, by rw [show (asIndex (rPointer 0)).toNat = 0 by decide]; rfl⟩
  · exact ⟨rPointer 1, rfl, by decide, by rw [show (asIndex (rPointer 1)).toNat = 1 by decide]; rfl⟩
  · show some (asFloat one) = _
    decide

theorem time_of {c : Code} {i k : Nat} {a : Word} {v : BitVec 64} (h : c[i]? = some a) (hk : (asIndex a).toNat = k)
    (h1 : c[k + 1]? = some (hi32 v)) (h2 : c[k + 2]? = some (lo32 v)) : getTime c i = some v := by
  subst hk
  simp only [getTime, Words.get, h, bind, Option.bind]
  exact getInt64_of h1 h2

theorem inject_of {O : Opc} {id obj prop : Nat} {v : Val} {after before : BitVec 64} {sync : Sync}
    {group : Option Nat} : inject O id (some obj) (some prop) v after before sync group =
      (markerValue O.mkVal (some obj) (some prop) v).bind fun m =>
        (factView O id after before sync group).map fun w => some ⟨w, m⟩ := by
  simp only [inject, Option.isNone, Bool.or_self, Bool.false_eq_true, if_false]
  cases markerValue O.mkVal (some obj) (some prop) v <;> rfl

theorem factView_eq (O : Opc) (id : Nat) (a b : BitVec 64) (sync : Sync) (group : Option Nat) :
    ∃ w, factView O id a b sync group = some w := by
  simp only [factView, factOf_eq, viewOf_eq, Option.bind]
  exact ⟨_, rfl⟩

theorem fact_is (op : BitVec 16) (hO : op.toNat < 4096) (id : Nat) (a b : BitVec 64) :
    ∃ f, factOf op id a b = some f ∧ IsFact op f id a b := by
  refine ⟨_, factOf_eq op id a b, ?_⟩
  have h := of_struct .OBJECT op 5 hO
  have hc := count_of .OBJECT op 5 hO (by simp)
  refine ⟨⟨_, rfl, h.1, h.2, by rw [Atom.object, hc]; rfl⟩, ⟨rPointer 0, rfl, by decide, ?_⟩, ?_, ?_, ?_, ?_, ?_, ?_⟩
  · rw [show (asIndex (rPointer 0)).toNat = 0 by decide]; rfl
  · exact time_of rfl six rfl rfl
  · rfl
  · exact time_of rfl nine rfl rfl
  · rfl
  · show some (asFloat one) = _
    decide
  · show some (asFloat one) = _
    decide

theorem view_shows (O : Opc) (hO : O.view.toNat < 4096) (sync : Sync) (t : BitVec 64) (host : Option Nat) (f : Obj) :
    ∃ v, viewOf O.view sync t host none f = some v ∧ v.object = f ∧ Shows O v sync t host := by
  refine ⟨_, viewOf_eq _ _ _ _ _ _, rfl, ?_⟩
  have h := of_struct .S_SET O.view 6 hO
  have hc := count_of .S_SET O.view 6 hO (by simp)
  refine ⟨⟨_, rfl, h.1, h.2, by rw [sSet, hc]; rfl⟩, ?_, ?_, rfl, ?_, ?_, rfl, rfl, rfl, by simp⟩
  · show some (asFloat (float sync.bits)) = _
    cases sync <;> decide
  · exact time_of rfl seven rfl rfl
  · show some (asFloat one) = _
    decide
  · show some (asFloat one) = _
    decide

/-- The marker of a small value says that value. -/
theorem marker_says (O : Opc) (hO : O.mkVal.toNat < 4096) (obj prop : Option Nat) (v : Val) (hv : v.Small) :
    ∃ m, markerValue O.mkVal obj prop v = some m ∧ Says O m obj prop v := by
  cases v with
  | atom w =>
    refine ⟨_, rfl, ?_⟩
    have := says_of O hO obj prop w [] [] (.atom w) rfl
    rwa [List.append_nil, List.append_nil] at this
  | object r =>
    refine ⟨_, rfl, ?_⟩
    rw [marked_eq]
    rw [show Obj.setRef ⟨[marker O.mkVal 4, rPointer 0, rPointer 1, rPointer 2, one], [obj, prop]⟩ 2 r =
      ⟨[marker O.mkVal 4, rPointer 0, rPointer 1, rPointer 2, one], [obj, prop, r]⟩ by simp [Obj.setRef]]
    exact says_of O hO obj prop (rPointer 2) [] [r] (.object r)
      ⟨rPointer 2, rfl, by decide, by rw [show (asIndex (rPointer 2)).toNat = 2 by decide]; rfl⟩
  | atoms ws =>
    have hl : ws.length < 256 := hv
    refine ⟨_, by rw [markerValue, if_pos (by omega)], ?_⟩
    rw [markedAt_eq, putAll_eq _ _ 6 rfl]
    have hs := of_set (BitVec.ofNat 8 ws.length)
    have := says_of O hO obj prop (iPointer 5) (set (BitVec.ofNat 8 ws.length) :: ws) [] (.atoms ws)
      ⟨_, hs.1, pointsTo_tail [marker O.mkVal 4, rPointer 0, rPointer 1, iPointer 5, one, _] rfl rfl _ rfl ws
        (by rw [hs.2, BitVec.toNat_ofNat]; omega)⟩
    exact this
  | struct op ws =>
    obtain ⟨ho, hl⟩ : op.toNat < 4096 ∧ ws.length < 256 := hv
    refine ⟨_, by rw [markerValue, if_pos (by omega)], ?_⟩
    rw [markedAt_eq, putAll_eq _ _ 6 rfl]
    have hs := of_struct .OBJECT op (BitVec.ofNat 8 ws.length) ho
    have hc := count_of .OBJECT op (BitVec.ofNat 8 ws.length) ho (by simp)
    exact says_of O hO obj prop (iPointer 5) (Atom.object op (BitVec.ofNat 8 ws.length) :: ws) [] (.struct op ws)
      ⟨_, hs.1, hs.2, pointsTo_tail [marker O.mkVal 4, rPointer 0, rPointer 1, iPointer 5, one, _] rfl rfl _ rfl ws
        (by rw [Atom.object, hc, BitVec.toNat_ofNat]; omega)⟩
  | objects os =>
    have hl : os.length < 256 := hv
    refine ⟨_, by rw [markerValue, if_pos (by omega)], ?_⟩
    rw [markedAt_eq, putRefs_eq _ _ 6 rfl]
    have hs := of_set (BitVec.ofNat 8 os.length)
    have hlen : (refWords 2 os.length).length = os.length := by simp [refWords]
    refine says_of O hO obj prop (iPointer 5) (set (BitVec.ofNat 8 os.length) :: refWords 2 os.length) os (.objects os)
      ⟨iPointer 5, set (BitVec.ofNat 8 os.length), rfl, by decide, by
        rw [show (asIndex (iPointer 5)).toNat = 5 by decide]; rfl, hs.1, by rw [hs.2, BitVec.toNat_ofNat]; omega, ?_⟩
    intro k r hk
    have hkl : k < os.length := (List.getElem?_eq_some_iff.mp hk).1
    have hw : (refWords 2 os.length)[k]? = some (rPointer (BitVec.ofNat 16 (2 + k))) := by
      simp [refWords, hkl]
    have hg : ([marker O.mkVal 4, rPointer 0, rPointer 1, iPointer 5, one] ++
        Atom.set (BitVec.ofNat 8 os.length) :: refWords 2 os.length)[6 + k]? = (refWords 2 os.length)[k]? := by
      rw [List.getElem?_append_right (by simp; omega)]
      simp only [List.length_cons, List.length_nil, show 6 + k - (0 + 1 + 1 + 1 + 1 + 1) = k + 1 by omega,
        List.getElem?_cons_succ]
    have hp := of_rPointer (2 + k) (by omega)
    rw [show (asIndex (iPointer 5)).toNat + 1 + k = 6 + k by rw [show (asIndex (iPointer 5)).toNat = 5 by decide]]
    refine ⟨_, hg.trans hw, hp.1, ?_⟩
    rw [hp.2, List.getElem?_append_right (by simp)]
    simpa using hk
  | text s =>
    obtain ⟨hl, ha⟩ : s.length < 255 ∧ ∀ b ∈ s, b ≠ 0 ∧ b.toNat < 128 := hv
    obtain ⟨hg, h, ws, he, _, _⟩ := C07_string_round_trip_partial s (by omega) ha
    refine ⟨_, rfl, ?_⟩
    rw [marked_eq]
    unfold Obj.setString
    rw [show target [marker O.mkVal 4, rPointer 0, rPointer 1, iPointer 5, one] 3 = 5 from by simp [target, grow, five], putAll_eq _ _ 5 rfl]
    have hd : getDescriptor h = 0xC6 := by
      have : h = string (BitVec.ofNat 8 s.length) := by
        have : (Words.setString s).head? = some (string (BitVec.ofNat 8 s.length)) := rfl
        rw [he] at this
        exact Option.some.inj this
      rw [this, of_string]
    have := says_of O hO obj prop (iPointer 5) (Words.setString s) [] (.text s)
      ⟨iPointer 5, rfl, by decide, by
        rw [show (asIndex (iPointer 5)).toNat = 5 by decide, he]
        exact congrArg some hd, by
        rw [show (asIndex (iPointer 5)).toNat = 5 by decide]; exact hg⟩
    exact this

/-- C102, the part that holds (missing: sets and structures of more than 255 values, texts of more than 254
characters or with characters that are zero or not ASCII): what is injected is the fact asked for; and without an
object or an attribute nothing is injected. -/
theorem C102_device_facts_partial (O : Opc) (hO : O.Fit) (id obj prop : Nat) (v : Val) (hv : v.Small)
    (after before : BitVec 64) (sync : Sync) (group : Option Nat) :
    (∃ r, inject O id (some obj) (some prop) v after before sync group = some (some r) ∧
      Says O r.marker (some obj) (some prop) v ∧ IsFact O.fact r.view.object id after before ∧
      Shows O r.view sync after group) ∧
    (∀ o p, o = none ∨ p = none → inject O id o p v after before sync group = some none) := by
  constructor
  · obtain ⟨m, hm, hs⟩ := marker_says O hO.1 (some obj) (some prop) v hv
    obtain ⟨f, hf, hfi⟩ := fact_is O.fact hO.2.1 id after before
    obtain ⟨w, hw, hwo, hws⟩ := view_shows O hO.2.2.2 sync after group f
    refine ⟨⟨w, m⟩, ?_, hs, hwo ▸ hfi, hws⟩
    rw [inject_of, hm, factView, hf]
    show ((viewOf O.view sync after group none f).map _) = _
    rw [hw]
    rfl
  · intro o p h
    rcases h with rfl | rfl
    · rfl
    · cases o <;> rfl

/-- The opcodes of an example. -/
def O₀ : Opc := ⟨10, 11, 12, 13⟩

/-- Reading a set tells the number of its members. -/
theorem reads_count {m : Obj} {ws : List Word} (h : Reads m (.atoms ws)) : ws.length < 256 := by
  obtain ⟨h, _, w, _, _, _, hc, _⟩ := h
  have := (getAtomCount h).isLt
  omega

/-- C102 is violated: a set of 256 numbers is injected as an empty set; with 65536 the call does not return; a text
with a character that is not ASCII is injected as another text. -/
theorem C102_device_facts_violated : ¬ C102_full ∧
    (∀ (id obj prop : Nat) (ws : List Word) after before sync group, ws.length = 256 →
      ∃ r h, inject O₀ id (some obj) (some prop) (.atoms ws) after before sync group = some (some r) ∧
        r.marker.code[5]? = some h ∧ getDescriptor h = 0xC1 ∧ getAtomCount h = 0) ∧
    (∀ (id obj prop : Nat) (ws : List Word) after before sync group, 65536 ≤ ws.length →
      inject O₀ id (some obj) (some prop) (.atoms ws) after before sync group = none) ∧
    (∃ r, inject O₀ 7 (some 1) (some 2) (.text [0xC3, 0xA9]) 0 5 .periodic (some 3) = some (some r) ∧
      getString (r.marker.code.drop 5) = some [0xC3, 0xFF]) := by
  have h2 : ∀ (id obj prop : Nat) (ws : List Word) after before sync group, 65536 ≤ ws.length →
      inject O₀ id (some obj) (some prop) (.atoms ws) after before sync group = none := by
    intro id obj prop ws after before sync group hl
    rw [inject_of, markerValue, if_neg (by omega)]
    rfl
  refine ⟨fun hf => ?_, ?_, h2, _, rfl, by decide⟩
  · obtain ⟨r, _, hs, _⟩ := hf O₀ (by unfold Opc.Fit; decide) 7 1 2 (.atoms (List.replicate 256 0)) 0 5 .periodic none
    have := reads_count hs.2.2.2.1
    rw [List.length_replicate] at this
    omega
  · intro id obj prop ws after before sync group hl
    have hm : markerValue O₀.mkVal (some obj) (some prop) (.atoms ws) =
        some ⟨[marker O₀.mkVal 4, rPointer 0, rPointer 1, iPointer 5, one, set 0] ++ ws, [some obj, some prop]⟩ := by
      rw [markerValue, if_pos (by omega), hl, markedAt_eq, putAll_eq _ _ 6 rfl]
      rfl
    obtain ⟨w, hw⟩ := factView_eq O₀ id after before sync group
    refine ⟨⟨w, _⟩, Atom.set 0, by rw [inject_of, hm, hw]; rfl, rfl, by decide, by decide⟩

/-- Small values of each kind. -/
theorem C102_nonvacuous : O₀.Fit ∧ Val.Small (.atoms [one, float 0]) ∧ Val.Small (.text [0x61, 0x62]) ∧
    Val.Small (.objects [some 4, none]) ∧ Val.Small (.struct 21 [one, one]) ∧
    (∃ r, inject O₀ 7 (some 1) (some 2) (.objects [some 4, none]) 0 5 .periodic (some 3) = some (some r) ∧
      r.marker.refs = [some 1, some 2, some 4, none] ∧ r.marker.code.length = 8) := by
  refine ⟨by unfold Opc.Fit; decide, by simp [Val.Small], ⟨by simp, by decide⟩, by simp [Val.Small], ⟨by decide, by simp⟩,
    _, rfl, rfl, rfl⟩

/-! ## The record of a command -/

/-- C103, the part that holds (missing: a time tolerance of more than half of the sampling period, and times before
the time reference). -/
theorem C103_efferent_copy_partial (now ref period tol : Int) (command : Nat) (executed : Option Nat)
    (hp : 0 < period) (ht : 2 * tol ≤ period) (hr : ref ≤ now) :
    ∃ r k, record now ref period tol command executed = some r ∧
      (∀ c, executed = some c → r.positive = true ∧ r.command = c ∧ r.injected = true) ∧
      (executed = none → r.positive = false ∧ r.command = command ∧ r.injected = false) ∧
      now ≤ r.after ∧ r.after ≤ r.before ∧
      r.before = ref + (k + 1) * period ∧ ref + k * period ≤ now ∧ now < ref + (k + 1) * period := by
  have hm := Int.tmod_add_mul_tdiv (now - ref) period
  have h0 := Int.tmod_nonneg period (show 0 ≤ now - ref by omega)
  have h1 := Int.tmod_lt_of_pos (now - ref) hp
  have he : now - (now - ref).tmod period = ref + (now - ref).tdiv period * period := by
    rw [Int.mul_comm] at hm; omega
  have he1 : ref + ((now - ref).tdiv period + 1) * period = now - (now - ref).tmod period + period := by
    rw [Int.add_mul]; omega
  unfold record
  rw [if_neg (by omega)]
  cases executed with
  | some c =>
    refine ⟨_, (now - ref).tdiv period, rfl, ?_, ?_, ?_⟩
    · intro c' h
      exact ⟨rfl, Option.some.inj h, rfl⟩
    · intro h; cases h
    · dsimp only
      omega
  | none =>
    refine ⟨_, (now - ref).tdiv period, rfl, ?_, ?_, ?_⟩
    · intro c' h; cases h
    · intro _; exact ⟨rfl, rfl, rfl⟩
    · dsimp only
      omega

/-- C103 is violated: with a tolerance of more than half of the sampling period the command is said to be executed
after the end of its interval; and before the time reference the interval is that of another period. -/
theorem C103_efferent_copy_violated : ¬ C103_full ∧
    record 1000 0 100 60 1 (some 1) = some ⟨true, 1, 1120, 1100, true⟩ ∧
    record (-10) 0 100 0 1 (some 1) = some ⟨true, 1, 0, 100, true⟩ := by
  refine ⟨fun hf => ?_, rfl, rfl⟩
  obtain ⟨r, k, h, _, _, _, h1, _⟩ := hf 1000 0 100 60 1 (some 1) (by omega) (by omega)
  have : r = ⟨true, 1, 1120, 1100, true⟩ := (Option.some.inj h).symm
  subst this
  dsimp only at h1
  omega

/-- A command within the second sampling period, executed with another value. -/
theorem C103_nonvacuous : (0 : Int) < 100 ∧ 2 * (10 : Int) ≤ 100 ∧
    record 1105 1000 100 10 1 (some 2) = some ⟨true, 2, 1120, 1200, true⟩ ∧
    record 1155 1000 100 10 1 none = some ⟨false, 1, 1155, 1200, false⟩ := ⟨by omega, by omega, rfl, rfl⟩

end Verif.Observe
