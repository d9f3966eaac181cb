import Verif.Labels.Lemmas

/-!
# C93: the labels of decompiled objects; C94: which objects are left out
-/
namespace Verif.Labels

/-- The name of a class as part of a label. -/
inductive Spelt : Name → Name → Prop
  | nil : Spelt [] []
  | dot {c n} (h : Spelt c n) : Spelt ('.' :: c) ('_' :: n)
  | bar {c n} (h : Spelt c n) : Spelt ('|' :: c) ("anti_".toList ++ n)
  | other {x c n} (h1 : x ≠ '.') (h2 : x ≠ '|') (h : Spelt c n) : Spelt (x :: c) (x :: n)

theorem spelt_ident (c : Name) : Spelt c (ident c) := by
  induction c with
  | nil => exact .nil
  | cons x c ih =>
    by_cases h1 : x = '.'
    · subst h1; exact .dot ih
    · by_cases h2 : x = '|'
      · subst h2; exact .bar ih
      · have : ident (x :: c) = x :: ident c := by simp [ident, h1, h2]
        rw [this]; exact .other h1 h2 ih

/-- An image with fewer objects than 16 bits can count, where no two objects were given the same name by the user. -/
structure Img.Fair (im : Img) : Prop where
  small : im.objs.length < 65536
  apart : ∀ (i j : Nat) o p n, im.objs[i]? = some o → im.objs[j]? = some p → im.symbols o.oid = some n →
    im.symbols p.oid = some n → i = j

/-- Labels are as they should be: all objects are counted; the label of an object is the name by which it is referred to; it
is the name given by the user or begins with the name of the class; different objects have different labels. -/
structure Labelled (cls : Nat → Name) (im : Img) (o : Out) : Prop where
  count : o.count = im.objs.length
  text : ∀ p ∈ o.text, p.2 = o.refer p.1
  own : ∀ (i : Nat) s n, im.objs[i]? = some s → im.symbols s.oid = some n → o.refer i = n
  made : ∀ (i : Nat) s, im.objs[i]? = some s → im.symbols s.oid = none → ∃ c t, Spelt (cls s.op) c ∧ o.refer i = c ++ t
  apart : ∀ i j, i < im.objs.length → j < im.objs.length → o.refer i = o.refer j → i = j

/-- **C93** in full: for all images decompiled one after another. -/
def C93_full : Prop :=
  ∀ (cls : Nat → Name) (ignore : Bool) (ims : List Img), (∀ im ∈ ims, im.Fair) →
    ∃ outs, decompileAll cls ignore start ims = some outs ∧ List.Forall₂ (Labelled cls) ims outs

theorem written_mem {s : St} {ignore : Bool} : ∀ (r : List Sys) (i : Nat) (p : Nat × Name), p ∈ written s ignore i r →
    i ≤ p.1 ∧ p.1 < i + r.length ∧ p.2 = (s.names p.1).getD []
  | [], _, _, h => by cases h
  | o :: r, i, p, h => by
    have ih := written_mem r (i + 1) p (s := s) (ignore := ignore)
    simp only [written] at h
    simp only [List.length_cons]
    split at h
    · obtain ⟨a, b, c⟩ := ih h; exact ⟨by omega, by omega, c⟩
    · rcases List.mem_cons.mp h with rfl | h
      · exact ⟨Nat.le_refl _, by simp only; omega, rfl⟩
      · obtain ⟨a, b, c⟩ := ih h; exact ⟨by omega, by omega, c⟩

/-- The names after `decompile_references` by a new decompiler. -/
theorem references_ok (cls : Nat → Name) (im : Img) (h : im.Fair) : ∃ s, references cls start im = some (im.objs.length, s) ∧ Apart s ∧
    (∀ (k : Nat) o, im.objs[k]? = some o → ∃ n, s.names k = some n ∧ (∀ m, im.symbols o.oid = some m → n = m) ∧
      (im.symbols o.oid = none → ∃ t, n = ident (cls o.op) ++ t)) ∧
    ∀ x, s.named x = true ↔ ∃ o ∈ im.objs, (im.symbols o.oid).isSome ∧ o.oid.setWidth 16 = x := by
  obtain ⟨s1, h1, h2, _, h4, h5, h6⟩ := pass1_ok im.symbols im.objs start 0 (fun _ _ => rfl)
  have h2 : ∀ k, s1.names k = (im.objs[k]?).bind fun o => im.symbols o.oid := fun k => by rw [h2 k]; simp
  have hg : ∀ a n, s1.names a = some n → ∃ o, im.objs[a]? = some o ∧ im.symbols o.oid = some n := by
    intro a n ha
    rw [h2 a, Option.bind_eq_some_iff] at ha
    exact ha
  have hA : Apart s1 := by
    constructor
    · intro a b n ha hb
      obtain ⟨o, ho, hn⟩ := hg a n ha
      obtain ⟨p, hp, hm⟩ := hg b n hb
      exact h.apart a b o p n ho hp hn hm
    · intro a n ha
      obtain ⟨o, ho, hn⟩ := hg a n ha
      exact h4 n o (List.mem_of_getElem? ho) hn
  have hs := h.small
  obtain ⟨s2, g1, g2, g3, _, g5⟩ := pass2_ok cls im.symbols im.objs s1 (fun _ => 0) 0 hA
    (by simp only [start, List.length_nil] at h5; omega) (fun k o hk => by rw [Nat.zero_add, h2 k, hk]; rfl)
  refine ⟨s2, by simp only [references, if_pos hs, h1, g1, Option.map_some], g2, fun k o hk => ?_, fun x => ?_⟩
  · have := g5 k o hk
    rwa [Nat.zero_add] at this
  · rw [g3, h6 x]; simp [start]

/-- **C93**, proved: for the first image that is decompiled. -/
theorem C93_labels_partial (cls : Nat → Name) (ignore : Bool) (im : Img) (h : im.Fair) :
    ∃ out s, decompile cls start im ignore = some (out, s) ∧ Labelled cls im out := by
  obtain ⟨s, h1, h2, h3, _⟩ := references_ok cls im h
  refine ⟨⟨im.objs.length, written s ignore 0 im.objs, fun i => (s.names i).getD "unknown-object".toList⟩, s,
    by simp only [decompile, h1, Option.map_some], rfl, fun p hp => ?_, fun i o n ho hn => ?_, fun i o ho hn => ?_, fun i j hi hj he => ?_⟩
  · obtain ⟨_, a2, a3⟩ := written_mem _ _ _ hp
    rw [Nat.zero_add] at a2
    obtain ⟨n, hn, _⟩ := h3 p.1 _ (List.getElem?_eq_getElem a2)
    simp only [a3, hn, Option.getD_some]
  · obtain ⟨m, hm, hu, _⟩ := h3 i o ho
    simp only [hm, Option.getD_some]
    exact hu n hn
  · obtain ⟨m, hm, _, hu⟩ := h3 i o ho
    obtain ⟨t, rfl⟩ := hu hn
    exact ⟨_, t, spelt_ident _, by simp only [hm, Option.getD_some]⟩
  · obtain ⟨m, hm, _⟩ := h3 i _ (List.getElem?_eq_getElem hi)
    obtain ⟨n, hn, _⟩ := h3 j _ (List.getElem?_eq_getElem hj)
    simp only [hm, hn, Option.getD_some] at he
    subst he
    exact h2.inj i j m hm hn

/-- Class 0 is `fact`, the others are `mk.val`. -/
def exCls : Nat → Name := fun n => if n = 0 then "fact".toList else "mk.val".toList

/-- An object without a name. -/
def imA : Img := ⟨[⟨1, 0⟩], fun _ => none⟩

/-- One with a name. -/
def imB : Img := ⟨[⟨2, 1⟩], fun x => if x = 2 then some "self".toList else none⟩

/-- One of another class. -/
def imC : Img := ⟨[⟨3, 1⟩], fun _ => none⟩

theorem imA_fair : imA.Fair := ⟨by decide, fun i j o p n _ _ h => by cases h⟩
theorem imC_fair : imC.Fair := ⟨by decide, fun i j o p n _ _ h => by cases h⟩
theorem imB_fair : imB.Fair := by
  refine ⟨by decide, fun i j o p n hi hj _ _ => ?_⟩
  have h1 := (List.getElem?_eq_some_iff.mp hi).1
  have h2 := (List.getElem?_eq_some_iff.mp hj).1
  simp only [imB, List.length_cons, List.length_nil] at h1 h2
  omega

/-- **C93**, violated: a decompiler that already decompiled an image (as in AERA/main.cpp, where objects are followed by
models) keeps the names of that image: it counts no objects when a named object is found where an unnamed one was, and
labels an object with the class of another. -/
theorem C93_labels_violated : ¬ C93_full ∧
    (∃ o p, decompileAll exCls false start [imA, imB] = some [o, p] ∧ p.count = 0 ∧ p.refer 0 = "fact_1".toList) ∧
    (∃ o p, decompileAll exCls false start [imA, imC] = some [o, p] ∧ p.refer 0 = "fact_1".toList) := by
  have h1 : ∃ o p, decompileAll exCls false start [imA, imB] = some [o, p] ∧ p.count = 0 ∧ p.refer 0 = "fact_1".toList :=
    ⟨_, _, rfl, rfl, by decide +kernel⟩
  refine ⟨fun hf => ?_, h1, _, _, rfl, by decide +kernel⟩
  obtain ⟨o, p, ho, hp, _⟩ := h1
  obtain ⟨outs, h2, h3⟩ := hf exCls false [imA, imB] (fun im him => by
    simp only [List.mem_cons, List.not_mem_nil, or_false] at him
    rcases him with rfl | rfl
    · exact imA_fair
    · exact imB_fair)
  rw [ho] at h2
  cases h2
  cases h3 with
  | cons _ h3 =>
    cases h3 with
    | cons h3 _ => have := h3.count; rw [hp] at this; cases this

/-- Two objects without identifiers, of class `mk.val`, one whose name the user gave to be the name that is made for the
first, and one with an identifier. -/
def exIm : Img := ⟨[⟨undefinedOid, 1⟩, ⟨undefinedOid, 1⟩, ⟨7, 0⟩, ⟨8, 0⟩],
  fun x => if x = 7 then some "mk_val0".toList else none⟩

/-- The hypotheses of `C93_labels_partial` are met; these are the labels. -/
theorem C93_nonvacuous : exIm.Fair ∧ (decompile exCls start exIm false).map (fun p => (p.1.count, p.1.text)) =
    some (4, [(0, "mk_val0b".toList), (1, "mk_val1".toList), (2, "mk_val0".toList), (3, "fact_8".toList)]) := by
  constructor
  · refine ⟨by decide, fun i j o p n hi hj h1 h2 => ?_⟩
    have a1 : o.oid = 7 := by
      by_contra hne
      simp only [exIm, if_neg hne] at h1
      cases h1
    have a2 : p.oid = 7 := by
      by_contra hne
      simp only [exIm, if_neg hne] at h2
      cases h2
    have key : ∀ (k : Nat) q, exIm.objs[k]? = some q → q.oid = 7 → k = 2 := by
      intro k q hk hq
      match k, hk with
      | 0, hk => cases hk; exact absurd hq (by decide)
      | 1, hk => cases hk; exact absurd hq (by decide)
      | 2, _ => rfl
      | 3, hk => cases hk; exact absurd hq (by decide)
      | k + 4, hk => cases hk
    rw [key i o hi a1, key j p hj a2]
  · decide +kernel

/-! ## Leaving named objects out -/

/-- The objects without names given by the user, from object `i` on. -/
def unnamed (sy : BitVec 32 → Option Name) : Nat → List Sys → List Nat
  | _, [] => []
  | i, o :: r => if (sy o.oid).isNone then i :: unnamed sy (i + 1) r else unnamed sy (i + 1) r

/-- **C94** in full: by a new decompiler that is to ignore named objects, the others are written, once each, in order. -/
def C94_full : Prop :=
  ∀ (cls : Nat → Name) (im : Img), im.Fair →
    ∃ out s, decompile cls start im true = some (out, s) ∧ out.text.map (·.1) = unnamed im.symbols 0 im.objs

theorem written_unnamed {s : St} {sy : BitVec 32 → Option Name} : ∀ (r : List Sys) (i : Nat),
    (∀ o ∈ r, s.named (o.oid.setWidth 16) = (sy o.oid).isSome) → (written s true i r).map (·.1) = unnamed sy i r
  | [], _, _ => rfl
  | o :: r, i, h => by
    have ih := written_unnamed (s := s) (sy := sy) r (i + 1) (fun p hp => h p (List.mem_cons_of_mem _ hp))
    have ho := h o List.mem_cons_self
    cases hn : sy o.oid with
    | none => simp [written, unnamed, ho, hn, ih]
    | some n => simp [written, unnamed, ho, hn, ih]

/-- **C94**, proved: for images where no object without a name has the low 16 bits of the identifier of a named one. -/
theorem C94_ignored_partial (cls : Nat → Name) (im : Img) (h : im.Fair)
    (h16 : ∀ o ∈ im.objs, ∀ p ∈ im.objs, (im.symbols o.oid).isSome → im.symbols p.oid = none → o.oid.setWidth 16 ≠ p.oid.setWidth 16) :
    ∃ out s, decompile cls start im true = some (out, s) ∧ out.text.map (·.1) = unnamed im.symbols 0 im.objs := by
  obtain ⟨s, h1, _, _, h4⟩ := references_ok cls im h
  refine ⟨⟨im.objs.length, written s true 0 im.objs, fun i => (s.names i).getD "unknown-object".toList⟩, s,
    by simp only [decompile, h1, Option.map_some], written_unnamed _ _ fun o ho => ?_⟩
  cases hn : im.symbols o.oid with
  | some n => exact (h4 _).mpr ⟨o, ho, by rw [hn]; rfl, rfl⟩
  | none =>
    cases hx : s.named (o.oid.setWidth 16) with
    | false => rfl
    | true =>
      obtain ⟨p, hp, hs, he⟩ := (h4 _).mp hx
      exact absurd he (h16 p hp o ho hs hn)

/-- One named object, and one without a name whose identifier has the same low 16 bits. -/
def imD : Img := ⟨[⟨2, 0⟩, ⟨65538, 0⟩], fun x => if x = 2 then some "self".toList else none⟩

theorem imD_fair : imD.Fair := by
  have key : ∀ (k : Nat) q n, imD.objs[k]? = some q → imD.symbols q.oid = some n → k = 0 := by
    intro k q n hk hq
    match k, hk with
    | 0, _ => rfl
    | 1, hk => cases hk; exact absurd hq (by simp [imD])
    | k + 2, hk => cases hk
  exact ⟨by decide, fun i j o p n hi hj h1 h2 => by rw [key i o n hi h1, key j p n hj h2]⟩

/-- **C94**, violated: the identifiers of named objects are kept in 16 bits. -/
theorem C94_ignored_violated : ¬ C94_full ∧
    (decompile exCls start imD true).map (fun p => p.1.text) = some [] ∧ unnamed imD.symbols 0 imD.objs = [1] := by
  have h : (decompile exCls start imD true).map (fun p => p.1.text) = some [] := by decide +kernel
  refine ⟨fun hf => ?_, h, by decide +kernel⟩
  obtain ⟨out, s, h1, h2⟩ := hf exCls imD imD_fair
  rw [h1] at h
  simp only [Option.map_some, Option.some.injEq] at h
  rw [h] at h2
  exact absurd h2 (by decide +kernel)

/-- The hypotheses of `C94_ignored_partial` are met by an image in which one object of four is named. -/
theorem C94_nonvacuous : exIm.Fair ∧
    (∀ o ∈ exIm.objs, ∀ p ∈ exIm.objs, (exIm.symbols o.oid).isSome → exIm.symbols p.oid = none → o.oid.setWidth 16 ≠ p.oid.setWidth 16) ∧
    (decompile exCls start exIm true).map (fun p => p.1.text.map (·.1)) = some [0, 1, 3] :=
  ⟨C93_nonvacuous.1, by decide +kernel, by decide +kernel⟩

end Verif.Labels
