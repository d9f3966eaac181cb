import Verif.Evidence.Model
import Verif.Match.Props
/-!
# Properties C16, C17, C18 (evidence) and C20 (absence, polarity)
-/
namespace Verif.Evidence
open Verif.Atom Verif.Words Verif.Match

/-! ## Vocabulary -/

/-- The opcodes are those of different classes and fit in an atom. -/
structure OpcOk (oc : Opc) : Prop where
  fact12 : oc.fact.toNat < 4096
  anti12 : oc.antiFact.toNat < 4096
  factAnti : oc.fact ≠ oc.antiFact
  factIcst : oc.fact ≠ oc.icst
  antiIcst : oc.antiFact ≠ oc.icst
  factMkVal : oc.fact ≠ oc.mkVal
  antiMkVal : oc.antiFact ≠ oc.mkVal
  mkValEnt : oc.mkVal ≠ oc.ent
  mkValOnt : oc.mkVal ≠ oc.ont
  mkValImdl : oc.mkVal ≠ oc.imdl
  icstEnt : oc.icst ≠ oc.ent
  icstOnt : oc.icst ≠ oc.ont
  icstImdl : oc.icst ≠ oc.imdl
  icstMkVal : oc.icst ≠ oc.mkVal

/-- `f` states (`pol = true`) or denies that object `o` holds from `a` to `b`. -/
structure States (oc : Opc) (f : Obj) (pol : Bool) (o : Nat) (a b : BitVec 64) : Prop where
  head : f.code[0]? = some (object (if pol then oc.fact else oc.antiFact) 5)
  about : f.refs[0]? = some o
  after : getAfter f = some a
  before : getBefore f = some b

/-- The evidence interval `[fa, fb)` and the target interval `[ga, gb)` overlap. -/
def Overlaps (fa fb ga gb : BitVec 64) : Prop := fa.toInt < gb.toInt ∧ ga.toInt < fb.toInt
/-- The evidence interval covers the target interval. -/
def Covers (fa fb ga gb : BitVec 64) : Prop := fa.toInt ≤ ga.toInt ∧ gb.toInt ≤ fb.toInt

/-- Two values of the same attribute exclude each other. -/
inductive ValuesDiffer (h : Heap) (oc : Opc) (t : Tol) (l : Nat) (lv : Word) (r : Nat) (rv : Word) :
    Prop
  | numbers : isFloat lv = true → isFloat rv = true → ¬ SameAtom t lv rv →
      ValuesDiffer h oc t l lv r rv
  | nilRef : getDescriptor lv = 0x80 → isRPtr rv = true → ValuesDiffer h oc t l lv r rv
  | refNil : isRPtr lv = true → getDescriptor rv = 0x80 → ValuesDiffer h oc t l lv r rv
  | refs (a b : Nat) : isRPtr lv = true → isRPtr rv = true → ref h l (asIndex lv).toNat = some a →
      ref h r (asIndex rv).toNat = some b → ¬ ObjLike h oc t false a b →
      ValuesDiffer h oc t l lv r rv
  | structs : isIPtr lv = true → isIPtr rv = true →
      ¬ StructLike h oc t false l (asIndex lv).toNat r (asIndex rv).toNat →
      ValuesDiffer h oc t l lv r rv
  | others : isFloat lv = false → isFloat rv = false → getDescriptor lv = getDescriptor rv →
      Plain lv → lv ≠ rv → ValuesDiffer h oc t l lv r rv

/-- Two marker values: same attribute of the same object, values that exclude each other. -/
structure Contradicts (h : Heap) (oc : Opc) (t : Tol) (l r : Nat) : Prop where
  ex : ∃ w lo ro la ra o at_ lv rv, word h l 0 = some w ∧ word h r 0 = some w ∧
    asOpcode w = oc.mkVal ∧
    word h l 1 = some lo ∧ word h r 1 = some ro ∧ word h l 2 = some la ∧ word h r 2 = some ra ∧
    ref h l (asIndex lo).toNat = some o ∧ ref h r (asIndex ro).toNat = some o ∧
    ref h l (asIndex la).toNat = some at_ ∧ ref h r (asIndex ra).toNat = some at_ ∧
    word h l 3 = some lv ∧ word h r 3 = some rv ∧ ValuesDiffer h oc t l lv r rv

/-- The object is not an instance of a composite state. -/
def NotIcst (h : Heap) (oc : Opc) (o : Nat) : Prop := ∀ w, word h o 0 = some w → asOpcode w ≠ oc.icst
/-- The value of the marker is not an unbound variable. -/
def ValueBound (h : Heap) (o : Nat) : Prop := ∀ w, word h o 3 = some w → isVar w = false

/-! ## Proof internals -/

theorem opcode_object (op : BitVec 16) (n : BitVec 8) (h : op.toNat < 4096) :
    asOpcode (object op n) = op := by
  apply BitVec.eq_of_toNat_eq
  rw [asOpcode_toNat, object, struct_toNat]
  have := n.isLt
  omega

theorem isFact_of {oc : Opc} (ok : OpcOk oc) {f : Obj} {p : Bool} {o : Nat} {a b : BitVec 64}
    (h : States oc f p o a b) : isFact oc f = some p := by
  rw [isFact, h.head]
  cases p
  · simp only [Bool.false_eq_true, if_false, Option.map_some, opcode_object _ _ ok.anti12,
      Option.some.injEq, beq_eq_false_iff_ne]
    exact Ne.symm ok.factAnti
  · simp [opcode_object _ _ ok.fact12]

theorem isAntiFact_of {oc : Opc} (ok : OpcOk oc) {f : Obj} {p : Bool} {o : Nat} {a b : BitVec 64}
    (h : States oc f p o a b) : isAntiFact oc f = some (!p) := by
  rw [isAntiFact, h.head]
  cases p
  · simp [opcode_object _ _ ok.anti12]
  · simp only [if_true, Option.map_some, opcode_object _ _ ok.fact12,
      Option.some.injEq, Bool.not_true, beq_eq_false_iff_ne]
    exact ok.factAnti

theorem head_eq_iff {oc : Opc} (ok : OpcOk oc) {p q : Bool} :
    object (if q then oc.fact else oc.antiFact) 5 = object (if p then oc.fact else oc.antiFact) 5 ↔
      p = q := by
  constructor
  · intro h
    have := congrArg asOpcode h
    cases p <;> cases q <;> simp only [Bool.false_eq_true, if_false, if_true,
      opcode_object _ _ ok.fact12, opcode_object _ _ ok.anti12] at this ⊢
    · exact absurd this ok.factAnti
    · exact absurd this.symm ok.factAnti
  · rintro rfl; rfl

theorem overlap_of {oc : Opc} {f g : Obj} {p q : Bool} {fo go : Nat} {fa fb ga gb : BitVec 64}
    (hf : States oc f p fo fa fb) (hg : States oc g q go ga gb) :
    ∃ b, overlap g f = some b ∧ (b = true ↔ Overlaps fa fb ga gb) := by
  refine ⟨_, by simp only [overlap, hf.after, hf.before, hg.after, hg.before, Option.bind_some,
    Option.map_some]; rfl, ?_⟩
  simp only [BitVec.sle, Overlaps, Bool.not_eq_true', Bool.or_eq_false_iff, decide_eq_false_iff_not]
  omega

theorem inclusive_of {oc : Opc} {f g : Obj} {p q : Bool} {fo go : Nat} {fa fb ga gb : BitVec 64}
    (hf : States oc f p fo fa fb) (hg : States oc g q go ga gb) :
    ∃ b, inclusive g f = some b ∧ (b = true ↔ Covers fa fb ga gb) := by
  refine ⟨_, by simp only [inclusive, hf.after, hf.before, hg.after, hg.before, Option.bind_some,
    Option.map_some]; rfl, ?_⟩
  simp only [BitVec.sle, Covers, Bool.and_eq_true, decide_eq_true_eq]

theorem float_not_desc {w : Word} (h : isFloat w = true) (d : BitVec 8) (hd : 128 ≤ d.toNat) :
    getDescriptor w ≠ d := by
  rw [isFloat_eq, decide_eq_true_eq] at h
  have := getDescriptor_toNat w
  intro he; rw [he] at this; omega

theorem counterMkVal_spec {h : Heap} {oc : Opc} {t : Tol} {n l r : Nat} {c : Bool} {w : Word}
    (ha : HasArgs h oc) (hw : word h l 0 = some w) (hw' : word h r 0 = some w)
    (hop : asOpcode w = oc.mkVal) (hb : ValueBound h l)
    (hm : counterMkVal h oc t n l r = some c) : c = true ↔ Contradicts h oc t l r := by
  simp only [counterMkVal, Option.bind_eq_some_iff] at hm
  obtain ⟨lo, e1, ro, e2, la, e3, ra, e4, lobj, e5, robj, e6, lattr, e7, rattr, e8, hm⟩ := hm
  by_cases hsame : lobj = robj ∧ lattr = rattr
  · rw [if_pos hsame] at hm
    obtain ⟨rfl, rfl⟩ := hsame
    simp only [Option.bind_eq_some_iff] at hm
    obtain ⟨lv, e9, rv, e10, hm⟩ := hm
    have key : (ValuesDiffer h oc t l lv r rv ↔ c = true) →
        (c = true ↔ Contradicts h oc t l r) := by
      intro hk
      rw [← hk]
      constructor
      · intro hv
        exact ⟨⟨w, lo, ro, la, ra, lobj, lattr, lv, rv, hw, hw', hop, e1, e2, e3, e4, e5, e6, e7, e8,
          e9, e10, hv⟩⟩
      · rintro ⟨w', lo', ro', la', ra', o', at', lv', rv', _, _, _, _, _, _, _, _, _, _, _, q1, q2, hv⟩
        rw [e9] at q1; rw [e10] at q2; cases q1; cases q2; exact hv
    apply key
    have hvar : isVar lv = false := hb lv e9
    by_cases f1 : isFloat lv = true
    · have nd : ∀ d : BitVec 8, 128 ≤ d.toNat → getDescriptor lv ≠ d := float_not_desc f1
      have nI : isIPtr lv = false := beq_eq_false_iff_ne.mpr (nd _ (by decide))
      have nR : isRPtr lv = false := beq_eq_false_iff_ne.mpr (nd _ (by decide))
      rw [if_pos f1] at hm
      by_cases f2 : isFloat rv = true
      · rw [if_pos f2] at hm
        simp only [Option.some.injEq] at hm
        subst hm
        simp only [Bool.not_eq_true']
        rw [← Bool.not_eq_true, matchAtom_iff]
        constructor
        · intro hv
          cases hv with
          | numbers _ _ hs => exact hs
          | nilRef q => exact absurd q (nd _ (by decide))
          | refNil q => rw [nR] at q; cases q
          | refs _ _ q => rw [nR] at q; cases q
          | structs q => rw [nI] at q; cases q
          | others q => rw [f1] at q; cases q
        · intro hs; exact .numbers f1 f2 hs
      · rw [if_neg f2] at hm
        simp only [Option.some.injEq] at hm
        subst hm
        simp only [Bool.false_eq_true, iff_false]
        intro hv
        cases hv with
        | numbers _ q => exact f2 q
        | nilRef q => exact nd _ (by decide) q
        | refNil q => rw [nR] at q; cases q
        | refs _ _ q => rw [nR] at q; cases q
        | structs q => rw [nI] at q; cases q
        | others q => rw [f1] at q; cases q
    · rw [if_neg f1] at hm
      by_cases f2 : isFloat rv = true
      · have nd : ∀ d : BitVec 8, 128 ≤ d.toNat → getDescriptor rv ≠ d := float_not_desc f2
        have nI : isIPtr rv = false := beq_eq_false_iff_ne.mpr (nd _ (by decide))
        have nR : isRPtr rv = false := beq_eq_false_iff_ne.mpr (nd _ (by decide))
        rw [if_pos f2] at hm
        simp only [Option.some.injEq] at hm
        subst hm
        simp only [Bool.false_eq_true, iff_false]
        intro hv
        cases hv with
        | numbers q => exact f1 q
        | nilRef _ q => rw [nR] at q; cases q
        | refNil _ q => exact nd _ (by decide) q
        | refs _ _ _ q => rw [nR] at q; cases q
        | structs _ q => rw [nI] at q; cases q
        | others _ q => rw [f2] at q; cases q
      · rw [if_neg f2] at hm
        by_cases hn : (getDescriptor lv = 0x80 ∧ getDescriptor rv = 0x85) ∨
            (getDescriptor lv = 0x85 ∧ getDescriptor rv = 0x80)
        · rw [if_pos hn] at hm
          cases hm
          simp only [iff_true]
          rcases hn with ⟨q1, q2⟩ | ⟨q1, q2⟩
          · exact .nilRef q1 (beq_iff_eq.mpr q2)
          · exact .refNil (beq_iff_eq.mpr q1) q2
        · rw [if_neg hn] at hm
          have nn1 : ¬ (getDescriptor lv = 0x80 ∧ isRPtr rv = true) := fun q =>
            hn (Or.inl ⟨q.1, beq_iff_eq.mp q.2⟩)
          have nn2 : ¬ (isRPtr lv = true ∧ getDescriptor rv = 0x80) := fun q =>
            hn (Or.inr ⟨beq_iff_eq.mp q.1, q.2⟩)
          by_cases hd : getDescriptor lv = getDescriptor rv
          · rw [if_neg (by simp [hd])] at hm
            have hI : isIPtr lv = isIPtr rv := by simp only [isIPtr, hd]
            have hR : isRPtr lv = isRPtr rv := by simp only [isRPtr, hd]
            by_cases wl : isWild lv = true
            · rw [if_pos wl] at hm
              cases hm
              obtain ⟨_, q2, q3⟩ := (@desc_cases lv).1 wl
              simp only [Bool.false_eq_true, iff_false]
              intro hv
              cases hv with
              | numbers q => exact f1 q
              | nilRef q q' => exact nn1 ⟨q, q'⟩
              | refNil q q' => exact nn2 ⟨q, q'⟩
              | refs _ _ q => rw [q3] at q; cases q
              | structs q => rw [q2] at q; cases q
              | others _ _ _ q => exact q.1 wl
            · rw [if_neg wl] at hm
              by_cases rl : isRPtr lv = true
              · rw [if_pos rl] at hm
                simp only [Option.bind_eq_some_iff, Option.map_eq_some_iff] at hm
                obtain ⟨a, ea, b, eb, m, em, hm⟩ := hm
                have hx := C19_exact h oc t false n a b m ha em
                obtain ⟨_, _, q3⟩ := (@desc_cases lv).2.2.2 rl
                subst hm
                simp only [Bool.not_eq_true']
                rw [← Bool.not_eq_true, hx]
                constructor
                · intro hv
                  cases hv with
                  | numbers q => exact absurd q f1
                  | nilRef q q' => exact absurd ⟨q, q'⟩ nn1
                  | refNil q q' => exact absurd ⟨q, q'⟩ nn2
                  | refs a' b' _ _ q1 q2 q4 =>
                    rw [ea] at q1; rw [eb] at q2; cases q1; cases q2; exact q4
                  | structs q => rw [q3] at q; cases q
                  | others _ _ _ q => exact absurd rl q.2.2.2
                · intro hno; exact .refs a b rl (hR ▸ rl) ea eb hno
              · rw [if_neg rl] at hm
                by_cases il : isIPtr lv = true
                · rw [if_pos il] at hm
                  simp only [Option.map_eq_some_iff] at hm
                  obtain ⟨m, em, hm⟩ := hm
                  have hx := (match_spec h oc t false ha n).2.1 l (asIndex lv).toNat r (asIndex rv).toNat
                  subst hm
                  simp only [Bool.not_eq_true']
                  constructor
                  · intro hv
                    cases hv with
                    | numbers q => exact absurd q f1
                    | nilRef q q' => exact absurd ⟨q, q'⟩ nn1
                    | refNil q q' => exact absurd ⟨q, q'⟩ nn2
                    | refs _ _ q => exact absurd q rl
                    | structs _ _ q =>
                      cases m with
                      | false => rfl
                      | true => exact absurd (hx.1 em) q
                    | others _ _ _ q => exact absurd il q.2.2.1
                  · intro hm; subst hm
                    exact .structs il (hI ▸ il) (hx.2 em)
                · rw [if_neg il] at hm
                  simp only [Option.some.injEq] at hm
                  subst hm
                  simp only [Bool.not_eq_true']
                  rw [← Bool.not_eq_true, matchAtom_iff]
                  have hpl : Plain lv := ⟨wl, by simp [hvar], il, rl⟩
                  constructor
                  · intro hv
                    cases hv with
                    | numbers q => exact absurd q f1
                    | nilRef q q' => exact absurd ⟨q, q'⟩ nn1
                    | refNil q q' => exact absurd ⟨q, q'⟩ nn2
                    | refs _ _ q => exact absurd q rl
                    | structs q => exact absurd q il
                    | others _ _ _ _ q =>
                      rintro (hs | ⟨hs, _⟩)
                      · exact q hs
                      · exact f1 hs
                  · intro hs
                    exact .others (by simpa using f1) (by simpa using f2) hd hpl
                      (fun he => hs (Or.inl he))
          · rw [if_pos hd] at hm
            cases hm
            simp only [Bool.false_eq_true, iff_false]
            intro hv
            cases hv with
            | numbers q => exact f1 q
            | nilRef q q' => exact nn1 ⟨q, q'⟩
            | refNil q q' => exact nn2 ⟨q, q'⟩
            | refs _ _ q q' => exact hd ((beq_iff_eq.mp q).trans (beq_iff_eq.mp q').symm)
            | structs q q' => exact hd ((beq_iff_eq.mp q).trans (beq_iff_eq.mp q').symm)
            | others _ _ q => exact hd q
  · rw [if_neg hsame] at hm
    cases hm
    simp only [Bool.false_eq_true, false_iff]
    rintro ⟨w', lo', ro', la', ra', o', at', lv', rv', _, _, _, q1, q2, q3, q4, q5, q6, q7, q8, _⟩
    rw [e1] at q1; rw [e2] at q2; rw [e3] at q3; rw [e4] at q4
    cases q1; cases q2; cases q3; cases q4
    rw [e5] at q5; rw [e6] at q6; rw [e7] at q7; rw [e8] at q8
    cases q5; cases q6; cases q7; cases q8
    exact hsame ⟨rfl, rfl⟩

theorem counterEvidence_spec {h : Heap} {oc : Opc} {t : Tol} {n l r : Nat} {c : Bool}
    (ok : OpcOk oc) (ha : HasArgs h oc) (hi : NotIcst h oc l) (hb : ValueBound h l)
    (hm : counterEvidence h oc t n l r = some c) : c = true ↔ Contradicts h oc t l r := by
  cases n with
  | zero => simp only [counterEvidence] at hm; cases hm
  | succ n =>
    simp only [counterEvidence, Option.bind_eq_some_iff] at hm
    obtain ⟨ol, e1, or, e2, lw, e3, rw', e4, hm⟩ := hm
    have w1 : word h l 0 = some lw := by simp [word, e1, e3]
    have w2 : word h r 0 = some rw' := by simp [word, e2, e4]
    have no : ∀ {P : Prop}, Contradicts h oc t l r → (asOpcode lw ≠ oc.mkVal ∨ lw ≠ rw') → P := by
      rintro P ⟨w', lo', ro', la', ra', o', at', lv', rv', q1, q2, q3, _⟩ hx
      rw [w1] at q1; rw [w2] at q2; cases q1; cases q2
      rcases hx with hx | hx
      · exact absurd q3 hx
      · exact absurd rfl hx
    by_cases h1 : asOpcode lw = oc.ent ∨ asOpcode lw = oc.ont ∨ asOpcode lw = oc.imdl
    · rw [if_pos h1] at hm
      cases hm
      simp only [Bool.false_eq_true, false_iff]
      intro hc
      refine no hc (Or.inl ?_)
      rcases h1 with h1 | h1 | h1 <;> rw [h1]
      · exact Ne.symm ok.mkValEnt
      · exact Ne.symm ok.mkValOnt
      · exact Ne.symm ok.mkValImdl
    · rw [if_neg h1] at hm
      by_cases h2 : lw = rw'
      · rw [if_neg (by simp [h2])] at hm
        by_cases h3 : asOpcode lw = oc.mkVal
        · rw [if_pos h3] at hm
          exact counterMkVal_spec ha w1 (h2 ▸ w2) h3 hb hm
        · rw [if_neg h3, if_neg (hi lw w1)] at hm
          cases hm
          simp only [Bool.false_eq_true, false_iff]
          intro hc; exact no hc (Or.inl h3)
      · rw [if_pos h2] at hm
        cases hm
        simp only [Bool.false_eq_true, false_iff]
        intro hc; exact no hc (Or.inr h2)

/-! ## C16 -/

/-- C16: an input `f` about `fo` is reported as evidence for the target `g` about `go` exactly as
follows. Positive: it states the same thing with the same polarity over an overlapping interval, or
it is a fact whose contents contradict a denied target which it covers in time. Negative: the same
with the opposite polarity, or a fact that covers and contradicts a stated target. Otherwise it is
unrelated. -/
theorem C16_evidence_exact (h : Heap) (oc : Opc) (t : Tol) (n : Nat) (f g : Obj) (pf pg : Bool)
    (fo go : Nat) (fa fb ga gb : BitVec 64) (res : MatchResult) (ok : OpcOk oc) (ha : HasArgs h oc)
    (hf : States oc f pf fo fa fb) (hg : States oc g pg go ga gb)
    (hi : NotIcst h oc fo) (hb : ValueBound h fo)
    (hm : isEvidence h oc t n f g = some res) :
    (res = .positive ↔
      (ObjLike h oc t false fo go ∧ Overlaps fa fb ga gb ∧ pf = pg) ∨
      (¬ ObjLike h oc t false fo go ∧ Contradicts h oc t fo go ∧ Covers fa fb ga gb ∧
        pf = true ∧ pg = false)) ∧
    (res = .negative ↔
      (ObjLike h oc t false fo go ∧ Overlaps fa fb ga gb ∧ pf ≠ pg) ∨
      (¬ ObjLike h oc t false fo go ∧ Contradicts h oc t fo go ∧ Covers fa fb ga gb ∧
        pf = true ∧ pg = true)) := by
  simp only [isEvidence, hf.about, hg.about, hf.head, hg.head, Option.bind_some,
    Option.bind_eq_some_iff] at hm
  obtain ⟨m, em, hm⟩ := hm
  have hx := C19_exact h oc t false n fo go m ha em
  obtain ⟨ov, eov, hov⟩ := overlap_of hf hg
  obtain ⟨inc, einc, hinc⟩ := inclusive_of hf hg
  cases m with
  | true =>
    have hlike := hx.mp rfl
    simp only [if_true, eov, Option.map_some, Option.some.injEq, head_eq_iff ok] at hm
    subst hm
    simp only [hlike, true_and, not_true_eq_false, false_and, or_false, ← hov]
    cases ov <;> by_cases hp : pf = pg <;> simp [hp]
  | false =>
    have hlike : ¬ ObjLike h oc t false fo go := fun q => by simpa using hx.mpr q
    simp only [Bool.false_eq_true, if_false, isFact_of ok hf, Option.bind_some] at hm
    simp only [hlike, false_and, not_false_eq_true, true_and, false_or, ← hinc]
    cases pf with
    | false =>
      simp only [Bool.false_eq_true, if_false, Option.some.injEq] at hm
      subst hm; simp
    | true =>
      simp only [if_true, einc, Option.bind_some] at hm
      cases inc with
      | false =>
        simp only [Bool.false_eq_true, if_false, Option.some.injEq] at hm
        subst hm; simp
      | true =>
        simp only [if_true, Option.bind_eq_some_iff] at hm
        obtain ⟨c, ec, hm⟩ := hm
        have hc := counterEvidence_spec ok ha hi hb ec
        simp only [← hc]
        cases c with
        | false =>
          simp only [Bool.false_eq_true, if_false, Option.some.injEq] at hm
          subst hm; simp
        | true =>
          simp only [if_true, isAntiFact_of ok hg, Option.map_some, Option.some.injEq] at hm
          subst hm
          cases pg <;> simp

/-! ### Concrete facts -/

def exOpc' : Opc := exOpc

/-- 0, 1: entity and attribute; 2, 3: the attribute of the entity is 1.0, is 2.0. -/
def evHeap : Heap := fun o => [
  ⟨[object 1 1, float 0], [], []⟩, ⟨[object 2 1, float 0], [], []⟩,
  ⟨[object 7 4, rPointer 0, rPointer 1, float 0x3F800000, float one], [0, 1], []⟩,
  ⟨[object 7 4, rPointer 0, rPointer 1, float 0x40000000, float one], [0, 1], []⟩][o]?

theorem exOpc_ok : OpcOk exOpc := by constructor <;> decide

theorem evHeap_args : HasArgs evHeap exOpc := by
  intro o w hw
  match o with
  | 0 | 1 | 2 | 3 => simp [word, evHeap] at hw; subst hw; decide
  | n + 4 => simp [word, evHeap] at hw

/-- The code the constructor produces. -/
theorem newFact_eq (op : BitVec 16) (o : Nat) (a b : BitVec 64) (c p : BitVec 32) :
    newFact op o a b c p = some ⟨[object op 5, rPointer 0, iPointer 6, iPointer 9, float c, float p,
      timestamp, hi32 a, lo32 a, timestamp, hi32 b, lo32 b], [o], []⟩ := by
  have i6 : asIndex (iPointer 6#16) = 6#16 := by decide
  have i9 : asIndex (iPointer 9#16) = 9#16 := by decide
  simp [newFact, put, grow, setTimestamp, target, setInt64, i6, i9, List.set, List.replicate]

theorem newFact_states (oc : Opc) (pol : Bool) (o : Nat) (a b : BitVec 64) (c p : BitVec 32) :
    ∃ f, newFact (if pol then oc.fact else oc.antiFact) o a b c p = some f ∧
      States oc f pol o a b ∧ f.code[4]? = some (float c) := by
  refine ⟨_, newFact_eq _ _ _ _ _ _, ⟨rfl, rfl, ?_, ?_⟩, rfl⟩
  · exact getInt64_of (c := [object (if pol then oc.fact else oc.antiFact) 5, rPointer 0, iPointer 6,
      iPointer 9, float c, float p, timestamp, hi32 a, lo32 a, timestamp, hi32 b, lo32 b]) (i := 7)
      rfl rfl
  · exact getInt64_of (c := [object (if pol then oc.fact else oc.antiFact) 5, rPointer 0, iPointer 6,
      iPointer 9, float c, float p, timestamp, hi32 a, lo32 a, timestamp, hi32 b, lo32 b]) (i := 10)
      rfl rfl

def exFact (pol : Bool) (o : Nat) (a b : BitVec 64) : Obj :=
  ⟨[object (if pol then exOpc.fact else exOpc.antiFact) 5, rPointer 0, iPointer 6, iPointer 9,
    float one, float one, timestamp, hi32 a, lo32 a, timestamp, hi32 b, lo32 b], [o], []⟩

theorem exFact_states (pol : Bool) (o : Nat) (a b : BitVec 64) :
    States exOpc (exFact pol o a b) pol o a b := by
  obtain ⟨f, e, hf, _⟩ := newFact_states exOpc pol o a b one one
  rw [newFact_eq] at e; cases e; exact hf

/-- The hypotheses of `C16_evidence_exact` are met, with every verdict: same value, same and
opposite polarity; other value against a fact and an anti-fact; other value too short; touching. -/
example : OpcOk exOpc ∧ HasArgs evHeap exOpc ∧ NotIcst evHeap exOpc 2 ∧ ValueBound evHeap 2 ∧
    isEvidence evHeap exOpc exTol 9 (exFact true 2 10 20) (exFact true 2 15 30) = some .positive ∧
    isEvidence evHeap exOpc exTol 9 (exFact false 2 10 20) (exFact true 2 15 30) = some .negative ∧
    isEvidence evHeap exOpc exTol 9 (exFact true 2 10 40) (exFact true 3 15 30) = some .negative ∧
    isEvidence evHeap exOpc exTol 9 (exFact true 2 10 40) (exFact false 3 15 30) = some .positive ∧
    isEvidence evHeap exOpc exTol 9 (exFact true 2 10 20) (exFact true 3 15 30) = some .failure ∧
    isEvidence evHeap exOpc exTol 9 (exFact true 2 10 15) (exFact true 2 15 30) = some .failure := by
  refine ⟨exOpc_ok, evHeap_args, ?_, ?_, by decide, by decide, by decide, by decide, by decide,
    by decide⟩
  · intro w hw; simp [word, evHeap] at hw; subst hw; decide
  · intro w hw; simp [word, evHeap] at hw; subst hw; decide

/-! ## C17 -/

/-- C17, full statement: when the intervals are compatible (the input covers the target and
overlaps it), the timeless classification agrees with the timed one. -/
def C17_full : Prop :=
  ∀ (h : Heap) (oc : Opc) (t : Tol) (n : Nat) (f g : Obj) (pf pg : Bool) (fo go : Nat)
    (fa fb ga gb : BitVec 64) (x y : MatchResult), OpcOk oc → HasArgs h oc →
    States oc f pf fo fa fb → States oc g pg go ga gb →
    Covers fa fb ga gb → Overlaps fa fb ga gb →
    isEvidence h oc t n f g = some x → isTimelessEvidence h oc t n f g = some y → x = y

/-- The full statement fails in both directions: a fact contradicting a denied target is positive
evidence with timings and unrelated without; an anti-fact about another value of a denied target
is unrelated with timings and positive evidence without. -/
theorem C17_timeless_violated :
    ¬ C17_full ∧
    (isEvidence evHeap exOpc exTol 9 (exFact true 2 10 40) (exFact false 3 15 30) = some .positive ∧
     isTimelessEvidence evHeap exOpc exTol 9 (exFact true 2 10 40) (exFact false 3 15 30)
      = some .failure) ∧
    (isEvidence evHeap exOpc exTol 9 (exFact false 2 10 40) (exFact false 3 15 30) = some .failure ∧
     isTimelessEvidence evHeap exOpc exTol 9 (exFact false 2 10 40) (exFact false 3 15 30)
      = some .positive) := by
  have e1 : isEvidence evHeap exOpc exTol 9 (exFact true 2 10 40) (exFact false 3 15 30)
      = some .positive := by decide
  have e2 : isTimelessEvidence evHeap exOpc exTol 9 (exFact true 2 10 40) (exFact false 3 15 30)
      = some .failure := by decide
  refine ⟨?_, ⟨e1, e2⟩, by decide, by decide⟩
  intro hf
  have := hf evHeap exOpc exTol 9 _ _ true false 2 3 10 40 15 30 _ _ exOpc_ok evHeap_args
    (exFact_states _ _ _ _) (exFact_states _ _ _ _) (by unfold Covers; decide)
    (by unfold Overlaps; decide) e1 e2
  cases this

/-- C17, proved part: the two classifications agree for two facts, and whenever the contents match
or the input is an anti-fact for a stated target. Missing: a fact against an anti-fact, and two
anti-facts, with contradictory contents, where the statement is false. -/
theorem C17_timeless_partial (h : Heap) (oc : Opc) (t : Tol) (n : Nat) (f g : Obj) (pf pg : Bool)
    (fo go : Nat) (fa fb ga gb : BitVec 64) (x y : MatchResult) (ok : OpcOk oc)
    (hf : States oc f pf fo fa fb) (hg : States oc g pg go ga gb)
    (hcov : Covers fa fb ga gb) (hov : Overlaps fa fb ga gb)
    (hcase : pg = true ∨ matchObject h oc t false n fo go = some true)
    (hx : isEvidence h oc t n f g = some x) (hy : isTimelessEvidence h oc t n f g = some y) :
    x = y := by
  simp only [isEvidence, hf.about, hg.about, hf.head, hg.head, Option.bind_some,
    Option.bind_eq_some_iff] at hx
  simp only [isTimelessEvidence, hf.about, hg.about, hf.head, hg.head, Option.bind_some,
    Option.bind_eq_some_iff] at hy
  obtain ⟨m, em, hx⟩ := hx
  obtain ⟨m', em', hy⟩ := hy
  rw [em] at em'; cases em'
  obtain ⟨ov, eov, hov'⟩ := overlap_of hf hg
  obtain ⟨inc, einc, hinc⟩ := inclusive_of hf hg
  have o1 := hov'.mpr hov
  have i1 := hinc.mpr hcov
  subst o1; subst i1
  cases m with
  | true =>
    simp only [if_true, eov, Option.map_some, Option.some.injEq] at hx hy
    rw [← hx, ← hy]
  | false =>
    have hpg : pg = true := by
      rcases hcase with h | h
      · exact h
      · rw [em] at h; cases h
    subst hpg
    simp only [Bool.false_eq_true, if_false, isFact_of ok hf, Option.bind_some,
      head_eq_iff ok] at hx hy
    cases pf with
    | false =>
      have hne : ¬ object oc.fact 5 = object oc.antiFact 5 := fun q => by
        simpa using (head_eq_iff ok (p := false) (q := true)).mp (by simpa using q)
      simp only [Bool.false_eq_true, if_false, Option.some.injEq, if_true, hne] at hx hy
      rw [← hx, ← hy]
    | true =>
      simp only [if_true, einc, Option.bind_some, isAntiFact_of ok hg] at hx hy
      rw [hx] at hy; exact Option.some.inj hy

example : isEvidence evHeap exOpc exTol 9 (exFact true 2 10 40) (exFact true 3 15 30) = some .negative ∧
    isTimelessEvidence evHeap exOpc exTol 9 (exFact true 2 10 40) (exFact true 3 15 30)
      = some .negative ∧ Covers 10 40 15 30 ∧ Overlaps 10 40 15 30 := by
  unfold Covers Overlaps
  refine ⟨by decide, by decide, by decide, by decide⟩

/-! ## C18 -/

/-- Object `o` is a fact or anti-fact. -/
def IsFactObj (h : Heap) (oc : Opc) (o : Nat) : Prop :=
  ∃ w, word h o 0 = some w ∧ (asOpcode w = oc.fact ∨ asOpcode w = oc.antiFact)

/-- `l` and `r` are instances of the same composite state. -/
def SameCst (h : Heap) (oc : Opc) (l r : Nat) (cl cr : List Nat) : Prop :=
  ∃ ol or w c, h l = some ol ∧ h r = some or ∧ ol.code[0]? = some w ∧ or.code[0]? = some w ∧
    asOpcode w = oc.icst ∧ ol.refs[0]? = some c ∧ or.refs[0]? = some c ∧ ol.comps = cl ∧
    or.comps = cr

/-- C18, full statement: two instances of the same composite state whose component facts are the
same except one pair, stating contradictory values of the same attribute of the same object, are
counter-evidence of each other. -/
def C18_full : Prop :=
  ∀ (h : Heap) (oc : Opc) (t : Tol) (n l r : Nat) (pre post : List Nat) (x y : Nat) (fx fy : Obj)
    (ox oy : Nat) (c : Bool),
    OpcOk oc → HasArgs h oc → SameCst h oc l r (pre ++ x :: post) (pre ++ y :: post) →
    (∀ o ∈ pre ++ post, IsFactObj h oc o) → h x = some fx → h y = some fy →
    (∃ a b a' b', States oc fx true ox a b ∧ States oc fy true oy a' b') →
    Contradicts h oc t ox oy → ValueBound h ox →
    counterEvidence h oc t n l r = some c → c = true

theorem anyPair_false {f : Nat → Nat → Option Bool} {l r : List Nat} {c : Bool}
    (hf : ∀ a ∈ l, ∀ b ∈ r, ∀ c, f a b = some c → c = false) (hm : anyPair f l r = some c) :
    c = false := by
  induction l generalizing r with
  | nil => simp [anyPair] at hm; exact hm
  | cons a l ih =>
    cases r with
    | nil => simp [anyPair] at hm
    | cons b r =>
      simp only [anyPair] at hm
      cases e : f a b with
      | none => rw [e] at hm; cases hm
      | some v =>
        have hv := hf a (by simp) b (by simp) v e
        subst hv
        rw [e] at hm
        exact ih (fun a ha b hb => hf a (by simp [ha]) b (by simp [hb])) hm

theorem counter_fact {h : Heap} {oc : Opc} {t : Tol} {n l r : Nat} {c : Bool} (ok : OpcOk oc)
    (hl : IsFactObj h oc l) (hm : counterEvidence h oc t n l r = some c) : c = false := by
  cases n with
  | zero => simp only [counterEvidence] at hm; cases hm
  | succ n =>
    simp only [counterEvidence, Option.bind_eq_some_iff] at hm
    obtain ⟨ol, e1, or, e2, lw, e3, rw', e4, hm⟩ := hm
    obtain ⟨w, hw, ho⟩ := hl
    have w1 : word h l 0 = some lw := by simp [word, e1, e3]
    rw [w1] at hw; cases hw
    have n1 : asOpcode lw ≠ oc.mkVal := by
      rcases ho with ho | ho <;> rw [ho]
      · exact ok.factMkVal
      · exact ok.antiMkVal
    have n2 : asOpcode lw ≠ oc.icst := by
      rcases ho with ho | ho <;> rw [ho]
      · exact ok.factIcst
      · exact ok.antiIcst
    simp only [n1, n2, if_false] at hm
    split at hm
    · cases hm; rfl
    · split at hm <;> (cases hm; rfl)

/-- Heap of the counterexample: 4, 5 facts about 2 (value 1.0) and 3 (value 2.0); 6 a composite
state; 7, 8 its instances with component 4, 5. -/
def icHeap : Heap := fun o => [
  ⟨[object 1 1, float 0], [], []⟩, ⟨[object 2 1, float 0], [], []⟩,
  ⟨[object 7 4, rPointer 0, rPointer 1, float 0x3F800000, float one], [0, 1], []⟩,
  ⟨[object 7 4, rPointer 0, rPointer 1, float 0x40000000, float one], [0, 1], []⟩,
  exFact true 2 10 20, exFact true 3 10 20,
  ⟨[object 4 1, float 0], [], []⟩,
  ⟨[object 6 4, rPointer 0, iPointer 5, iPointer 6, float one, set 0, set 0], [6], [4]⟩,
  ⟨[object 6 4, rPointer 0, iPointer 5, iPointer 6, float one, set 0, set 0], [6], [5]⟩][o]?

/-- The full statement fails, always: components are facts, for which `CounterEvidence` answers
no, so whatever their components, two instances are never counter-evidence of each other. -/
theorem C18_composite_counter_evidence_violated :
    ¬ C18_full ∧
    (∀ (h : Heap) (oc : Opc) (t : Tol) (n l r : Nat) (cl cr : List Nat) (c : Bool), OpcOk oc →
      SameCst h oc l r cl cr → (∀ o ∈ cl, IsFactObj h oc o) →
      counterEvidence h oc t n l r = some c → c = false) := by
  have never : ∀ (h : Heap) (oc : Opc) (t : Tol) (n l r : Nat) (cl cr : List Nat) (c : Bool),
      OpcOk oc → SameCst h oc l r cl cr → (∀ o ∈ cl, IsFactObj h oc o) →
      counterEvidence h oc t n l r = some c → c = false := by
    intro h oc t n l r cl cr c ok hs hc hm
    cases n with
    | zero => simp only [counterEvidence] at hm; cases hm
    | succ n =>
      obtain ⟨ol, or, w, k, e1, e2, e3, e4, e5, e6, e7, e8, e9⟩ := hs
      simp only [counterEvidence, e1, e2, e3, e4, e6, e7, Option.bind_some, e5, ne_eq,
        not_true_eq_false, if_false, Ne.symm (Ne.symm ok.icstEnt), ok.icstOnt, ok.icstImdl,
        ok.icstMkVal, or_self, if_true] at hm
      rw [e8, e9] at hm
      exact anyPair_false (fun a ha b _ c hh => counter_fact ok (hc a ha) hh) hm
  refine ⟨?_, never⟩
  intro hf
  have hm : counterEvidence icHeap exOpc exTol 3 7 8 = some false := by decide
  have hargs : HasArgs icHeap exOpc := by
    intro o w hw
    match o with
    | 0 | 1 | 2 | 3 | 4 | 5 | 6 | 7 | 8 =>
      simp [word, icHeap, exFact] at hw; subst hw; decide
    | n + 9 => simp [word, icHeap] at hw
  have hcon : Contradicts icHeap exOpc exTol 2 3 := by
    refine (counterEvidence_spec (n := 3) exOpc_ok hargs ?_ ?_ (by decide)).mp rfl
    · intro w hw; simp [word, icHeap] at hw; subst hw; decide
    · intro w hw; simp [word, icHeap] at hw; subst hw; decide
  have := hf icHeap exOpc exTol 3 7 8 [] [] 4 5 _ _ 2 3 false exOpc_ok hargs
    ⟨_, _, _, _, rfl, rfl, rfl, rfl, by decide, rfl, rfl, rfl, rfl⟩ (by simp) rfl rfl
    ⟨10, 20, 10, 20, exFact_states _ _ _ _, exFact_states _ _ _ _⟩ hcon
    (by intro w hw; simp [word, icHeap] at hw; subst hw; decide) hm
  cases this

theorem anyPair_true {f : Nat → Nat → Option Bool} {x y : Nat} {pre post : List Nat} {c : Bool}
    (hxy : ∀ c, f x y = some c → c = true)
    (hm : anyPair f (pre ++ x :: post) (pre ++ y :: post) = some c) : c = true := by
  induction pre with
  | nil =>
    simp only [List.nil_append, anyPair] at hm
    cases e : f x y with
    | none => rw [e] at hm; cases hm
    | some v =>
      have := hxy v e; subst this
      rw [e] at hm; cases hm; rfl
  | cons a l ih =>
    simp only [List.cons_append, anyPair] at hm
    cases e : f a a with
    | none => rw [e] at hm; cases hm
    | some v =>
      rw [e] at hm
      cases v with
      | true => cases hm; rfl
      | false => exact ih hm

/-- C18, proved part: if the components were the marker values themselves instead of facts about
them, the composite states would be counter-evidence; and instances of different composite states
never are. Missing: the components the system actually stores (facts), where the statement is
false. -/
theorem C18_composite_counter_evidence_partial (h : Heap) (oc : Opc) (t : Tol) (n l r : Nat)
    (ok : OpcOk oc) (ha : HasArgs h oc) (c : Bool) (hm : counterEvidence h oc t n l r = some c) :
    (∀ pre post x y, SameCst h oc l r (pre ++ x :: post) (pre ++ y :: post) →
      Contradicts h oc t x y → ValueBound h x → NotIcst h oc x → c = true) ∧
    (∀ ol or w a b, h l = some ol → h r = some or → ol.code[0]? = some w → or.code[0]? = some w →
      asOpcode w = oc.icst → ol.refs[0]? = some a → or.refs[0]? = some b → a ≠ b → c = false) := by
  cases n with
  | zero => simp only [counterEvidence] at hm; cases hm
  | succ n =>
    refine ⟨?_, ?_⟩
    · intro pre post x y hs hcon hb hi
      obtain ⟨ol, or, w, k, e1, e2, e3, e4, e5, e6, e7, e8, e9⟩ := hs
      simp only [counterEvidence, e1, e2, e3, e4, e6, e7, Option.bind_some, e5, ne_eq,
        not_true_eq_false, if_false, ok.icstEnt, ok.icstOnt, ok.icstImdl, ok.icstMkVal, or_self,
        if_true] at hm
      rw [e8, e9] at hm
      exact anyPair_true (fun c hc => (counterEvidence_spec ok ha hi hb hc).mpr hcon) hm
    · intro ol or w a b e1 e2 e3 e4 e5 e6 e7 hab
      simp only [counterEvidence, e1, e2, e3, e4, e6, e7, Option.bind_some, e5, ne_eq,
        not_true_eq_false, if_false, ok.icstEnt, ok.icstOnt, ok.icstImdl, ok.icstMkVal, or_self,
        if_true, hab, not_false_eq_true] at hm
      cases hm; rfl

/-! ## C20 -/

/-- C20: the absentee of a fact or anti-fact is the statement of opposite polarity about the same
object over the same interval, with confidence 1. -/
theorem C20_absentee (oc : Opc) (ok : OpcOk oc) (f : Obj) (pol : Bool) (o : Nat) (a b : BitVec 64)
    (hf : States oc f pol o a b) :
    ∃ g, getAbsentee oc f = some g ∧ States oc g (!pol) o a b ∧ g.code[4]? = some (float one) ∧
      g.refs = [o] := by
  obtain ⟨g, e, hg, hc⟩ := newFact_states oc (!pol) o a b one one
  refine ⟨g, ?_, hg, hc, ?_⟩
  · simp only [getAbsentee, isFact_of ok hf, hf.about, hf.after, hf.before, Option.bind_some]
    rw [← e]; cases pol <;> rfl
  · rw [newFact_eq] at e; cases e; rfl

theorem getTime_set0 (c : Code) (i : Nat) (w : Word) (hi : i ≠ 0) :
    getTime (c.set 0 w) i = getTime c i := by
  simp only [getTime, Words.get, getInt64, List.getElem?_set_ne (Ne.symm hi)]
  cases c[i]? with
  | none => rfl
  | some a =>
    simp only [Option.bind_eq_bind, Option.bind_some]
    rw [List.getElem?_set_ne (by omega), List.getElem?_set_ne (by omega)]

/-- C20: flipping the polarity changes nothing else: same object, interval, confidence and
references; flipping twice restores the fact. -/
theorem C20_flip (oc : Opc) (ok : OpcOk oc) (f : Obj) (pol : Bool) (o : Nat) (a b : BitVec 64)
    (hf : States oc f pol o a b) :
    ∃ g, setOpposite oc f = some g ∧ States oc g (!pol) o a b ∧ g.refs = f.refs ∧
      (∀ i, i ≠ 0 → g.code[i]? = f.code[i]?) ∧ setOpposite oc g = some f := by
  have hlen : 0 < f.code.length := (List.getElem?_eq_some_iff.mp hf.head).1
  let g : Obj := { f with code := f.code.set 0 (object (if pol then oc.antiFact else oc.fact) 5) }
  have hg : States oc g (!pol) o a b := by
    refine ⟨?_, hf.about, ?_, ?_⟩
    · cases pol <;> simp [g, hlen]
    · have := hf.after
      simp only [getAfter] at this ⊢
      rw [getTime_set0 _ _ _ (by decide)]; exact this
    · have := hf.before
      simp only [getBefore] at this ⊢
      rw [getTime_set0 _ _ _ (by decide)]; exact this
  refine ⟨g, ?_, hg, rfl, ?_, ?_⟩
  · simp only [setOpposite, isFact_of ok hf, Option.map_some, g]
  · intro i hi; exact List.getElem?_set_ne (Ne.symm hi)
  · simp only [setOpposite, isFact_of ok hg, Option.map_some, g, List.set_set]
    have h0 := hf.head
    have e : f.code.set 0 (object (if pol then oc.fact else oc.antiFact) 5) = f.code := by
      obtain ⟨h1, h2⟩ := List.getElem?_eq_some_iff.mp h0
      rw [← h2]; exact List.set_getElem_self h1
    cases pol <;> simp only [Bool.not_false, Bool.not_true, Bool.false_eq_true, if_true, if_false] at e ⊢ <;>
      rw [e]

/-- Hypotheses met. -/
example : States exOpc (exFact true 2 10 20) true 2 10 20 ∧
    setOpposite exOpc (exFact true 2 10 20) = some (exFact false 2 10 20) :=
  ⟨exFact_states _ _ _ _, by decide⟩

end Verif.Evidence
