import Verif.Compile.Lemmas

/-! # Reading elements without parts -/
namespace Verif.Compile
open Verif.Macro Verif.Classes Verif.Atom

/-- The function that reads what stands somewhere. -/
def readPos (f : Nat) (e : Env) (s : St) (wi : Nat) (w : Bool) : Pos → Syn → Out
  | .any, x => readAny f e s wi w x
  | .mem m, x => readMember f e s wi w m x
  | .ex c, x => readExpr f e s wi w true (some c) x
  | .se c, x => readSet f e s wi w true (some (c, .own .cls)) x

/-- By kinds. -/
def readK (f : Nat) (e : Env) (s : St) (wi : Nat) (w : Bool) (u : Use) : Kind → Syn → Out
  | .any, x => readAny f e s wi w x
  | .lit k, x => readLit f e s wi w true k x
  | .expr c, x => readExpr f e s wi w true c x
  | .set none, x => readSet f e s wi w true none x
  | .set (some (c, _)), x => readSet f e s wi w true (some (c, u)) x

@[simp] theorem restore_self (s : St) : restore s s = s := rfl

@[simp] theorem or_yes (s : St) (k : St → Out) : (Out.yes s).or k = .yes s := rfl
@[simp] theorem or_no (s : St) (k : St → Out) : (Out.no s).or k = k s := rfl
@[simp] theorem or_err (k : St → Out) : Out.err.or k = .err := rfl

theorem readExpr_xpr (f : Nat) (e : Env) (s : St) (wi : Nat) (w b : Bool) (c : Class) (x : Syn) (h : c.name = "xpr".toList) :
    readExpr f e s wi w b (some c) x = readExpr f e s wi w b none x := by
  cases f with
  | zero => rfl
  | succ f =>
    have : Option.filter (fun c : Class => decide (c.name ≠ "xpr".toList)) (some c) = none := by simp [Option.filter, h]
    simp only [readExpr, this, Option.filter_none]

theorem ret_ne_any (k : Lit) : k.ret ≠ .any := by cases k <;> simp [Lit.ret]

variable {P : Limits} {L : Lang} {e : Env} {U : Name → Iter → Prop}

theorem hlpRef_no {s : St} {wi : Nat} {w b : Bool} {x : Name} (A : Agrees L e) (h : Inv L s) (hx : x ∉ s.hlp) :
    readHlpRef s wi w x b = .no s := by
  have hi : ¬ s.hlp.idxOf x < s.hlp.length := fun hh => hx (List.idxOf_lt_length_iff.1 hh)
  have := h.hlp_lt A
  simp [readHlpRef, hi, show ¬ s.hlp.length > 255 by omega]

theorem hlpRef_yes {s : St} {wi : Nat} {w : Bool} {x : Name} (A : Agrees L e) (h : Inv L s) (hx : x ∈ s.hlp) :
    readHlpRef s wi w x false = .yes (wr w s wi (vlPointer (BitVec.ofNat 16 (s.hlp.idxOf x)))) := by
  have hi := List.idxOf_lt_length_of_mem hx
  have := h.hlp_lt A
  simp [readHlpRef, hi, show s.hlp.idxOf x < 256 by omega]

/-- A name that is no variable is no reference of a type. -/
theorem ref_no {s : St} {wi : Nat} {w b : Bool} {x : Name} {t : Ret} (A : Agrees L e) (h : Inv L s) (hx : x ∉ s.hlp)
    (ht : t ≠ .any) : readRef e s wi w t (.name x b) = .no s := by
  simp only [readRef, h.locals, readGlobalRef, A.globals]
  cases hg : L.globals x with
  | none => simpa using hlpRef_no A h hx
  | some p =>
    obtain ⟨o, ty⟩ := p
    have := A.types x o ty hg
    subst this
    simp [ht, Ne.symm ht, hlpRef_no A h hx]

theorem ref_var {s : St} {wi : Nat} {w : Bool} {x : Name} {t : Ret} (A : Agrees L e) (h : Inv L s) (hx : x ∈ s.hlp) :
    readRef e s wi w t (.name x false) = .yes (wr w s wi (vlPointer (BitVec.ofNat 16 (s.hlp.idxOf x)))) := by
  simp only [readRef, h.locals, readGlobalRef, A.globals, (h.names x hx).2.1, hlpRef_yes A h hx]

/-- Something that the first attempt of all functions reads. -/
theorem readK_first {x : Syn} {s s' : St} {wi : Nat} {w : Bool}
    (hs : ∀ t op, (readVar e s wi w t op x = .yes s') ∨ (readVar e s wi w t op x = .no s ∧
      ∀ t, (readRef e s wi w t x = .yes s') ∨ (readRef e s wi w t x = .no s ∧ readWild e s wi w x = .yes s')))
    (hn : ∀ n, x ≠ .nilw n) (he : x ≠ .empty) (f : Nat) (u : Use) (K : Kind) :
    readK (f + 2) e s wi w u K x = .yes s' := by
  have hl : ∀ f b k, readLit (f + 1) e s wi w b k x = .yes s' := by
    intro f b k
    have hnil : readNil k s wi w x = .no s := by
      cases x <;> first | rfl | exact absurd rfl (hn _)
    simp only [readLit, readSimple, hnil, or_no]
    rcases hs k.ret 0x0FFF with h | ⟨h, h'⟩
    · simp only [h, or_yes]
    · rcases h' k.ret with h2 | ⟨h2, h3⟩
      · simp only [h, h2, or_yes, or_no]
      · simp only [h, h2, h3, or_yes, or_no]
  cases K with
  | any => simp only [readK, readAny, hl, or_yes]
  | lit k => exact hl _ _ _
  | expr c =>
    have h0 : readNilX s wi w x = .no s := by
      cases x <;> first | rfl | exact absurd rfl (hn _)
    simp only [readK, readExpr, h0, or_no]
    cases hc : c.filter (·.name ≠ "xpr".toList) with
    | none =>
      simp only
      rcases hs .any 0x0FFF with h | ⟨h, h'⟩
      · simp only [h, or_yes]
      · rcases h' .any with h2 | ⟨h2, h3⟩
        · simp only [h, h2, or_yes, or_no]
        · simp only [h, h2, h3, or_yes, or_no]
    | some c =>
      simp only
      rcases hs c.type (asOpcode c.atom) with h | ⟨h, h'⟩
      · simp only [h, or_yes]
      · rcases h' c.type with h2 | ⟨h2, h3⟩
        · simp only [h, h2, or_yes, or_no]
        · simp only [h, h2, h3, or_yes, or_no]
  | set p =>
    have h0 : readNilSet s wi w x = .no s := by
      cases x <;> first | rfl | exact absurd rfl he
    have : ∀ q, readSet (f + 2) e s wi w true q x = .yes s' := by
      intro q
      simp only [readSet, h0, or_no]
      rcases hs .set 0x0FFF with h | ⟨h, h'⟩
      · simp only [h, or_yes]
      · rcases h' .set with h2 | ⟨h2, h3⟩
        · simp only [h, h2, or_yes, or_no]
        · simp only [h, h2, h3, or_yes, or_no]
    cases p with
    | none => exact this none
    | some p => obtain ⟨c, i⟩ := p; exact this (some (c, u))

/-- Not an expression, and nothing that begins as one. -/
def plain : Syn → Bool
  | .expr _ _ _ => false
  | .set (some _) _ => false
  | .cls _ _ => false
  | .var _ => false
  | _ => true

theorem exprT_plain {x : Syn} (h : plain x = true) (f : Nat) (s : St) (wi : Nat) (w : Bool) (t : Ret) :
    exprT (f + 1) e s wi w t x = .no s := by
  cases x with
  | set l a => cases l <;> simp_all [plain, exprT]
  | _ => simp_all [plain, exprT]

theorem exprC_plain {x : Syn} (h : plain x = true) (f : Nat) (s : St) (wi : Nat) (w : Bool) (c : Class) :
    exprC (f + 1) e s wi w c x = .no s := by
  cases x with
  | set l a => cases l <;> simp_all [plain, exprC]
  | _ => simp_all [plain, exprC]

theorem readLit_no {x : Syn} (h : plain x = true) {s : St} {wi : Nat} {w : Bool} {k : Lit}
    (hs : readSimple k e s wi w x = .no s) (f : Nat) : readLit (f + 2) e s wi w false k x = .no s := by
  simp [readLit, hs, exprT_plain h]

theorem readLit_yes {x : Syn} {s s' : St} {wi : Nat} {w : Bool} {k : Lit}
    (hs : readSimple k e s wi w x = .yes s') (f : Nat) (b : Bool) : readLit (f + 1) e s wi w b k x = .yes s' := by
  simp [readLit, hs]

theorem readClass_plain {x : Syn} (h : plain x = true) (s : St) (wi : Nat) (w : Bool) : readClass e s wi w x = .no s := by
  cases x <;> simp_all [plain, readClass]

theorem strip_plain {x : Syn} (h : plain x = true) : strip x = x := by
  cases x with
  | set l a => cases l <;> simp_all [plain, strip]
  | _ => simp_all [plain, strip]

/-- A value that the function for its kind reads. -/
theorem readK_value {x : Syn} {s s' : St} {wi : Nat} {w : Bool} {l : Lit} (hx : plain x = true)
    (hn : ∀ k, k ≠ l → readSimple k e s wi w x = .no s) (hy : readSimple l e s wi w x = .yes s') {K : Kind} (hK : litOk l K)
    (f : Nat) (u : Use) : readK (f + 4) e s wi w u K x = .yes s' := by
  cases K with
  | any =>
    have no : ∀ k, k ≠ l → readLit (f + 3) e s wi w false k x = .no s := fun k hk => readLit_no hx (hn k hk) (f + 1)
    have yes : readLit (f + 3) e s wi w false l x = .yes s' := readLit_yes hy (f + 2) false
    simp only [readK, readAny]
    cases l <;> simp [no, yes]
  | lit k => cases (show k = l from hK); exact readLit_yes hy (f + 3) true
  | expr c => exact absurd hK id
  | set p => exact absurd hK id

/-- Something that `read_expression` reads before it tries an expression, and no other function. -/
theorem readK_object {x : Syn} {s s' : St} {wi : Nat} {w : Bool} (hx : plain x = true)
    (hn : ∀ k, readSimple k e s wi w x = .no s) (hv : ∀ t op, readVar e s wi w t op x = .no s)
    (hy : readNilX s wi w x = .yes s' ∨ (readNilX s wi w x = .no s ∧ readRef e s wi w .any x = .yes s')) {K : Kind}
    (hK : objOk K) (f : Nat) (u : Use) : readK (f + 4) e s wi w u K x = .yes s' := by
  have key : ∀ f b, readExpr (f + 1) e s wi w b none x = .yes s' := by
    intro f b
    rcases hy with h | ⟨h, h'⟩
    · simp [readExpr, h]
    · simp [readExpr, h, hv, h']
  cases K with
  | any =>
    have no : ∀ k, readLit (f + 3) e s wi w false k x = .no s := fun k => readLit_no hx (hn k) (f + 1)
    simp [readK, readAny, no, readClass_plain hx, strip_plain hx, key]
  | expr c =>
    cases c with
    | none => exact key _ _
    | some c =>
      have hc : c.type = .any := hK
      by_cases hm : c.name = "xpr".toList
      · simp only [readK]; rw [readExpr_xpr _ _ _ _ _ _ _ _ hm]; exact key _ _
      · have : Option.filter (fun c : Class => decide (c.name ≠ "xpr".toList)) (some c) = some c := by
          rw [Option.filter_some]; exact if_pos (decide_eq_true hm)
        rcases hy with h | ⟨h, h'⟩
        · simp only [readK, readExpr, h, or_yes]
        · simp only [readK, readExpr, this, h, hv, hc, h', or_yes, or_no]
  | lit k => exact absurd hK id
  | set p => exact absurd hK id

/-- The sources that are read as they should be. -/
structure Plain (P : Limits) : Prop where
  str : ∀ s, P.str s → ∀ b ∈ s, b.toNat < 128
  close : ∀ b, P.close b → b = false

theorem did_code {s : St} {w : Bool} {wi : Nat} {t : Tree} {D : List Name} (h : Inv L s) (hD : ∀ x ∈ D, x ∈ s.hlp) (a : Word)
    (ht : t = .word a) : Did L U w s (wr w s wi a) wi t D := by
  subst ht
  exact did_word a h hD _ rfl (.word (Words.put_get_self _ _ _))

theorem did_time {s : St} {w : Bool} {wi : Nat} {D : List Name} (h : Inv L s) (hD : ∀ x ∈ D, x ∈ s.hlp) (a : Word)
    (v : BitVec 64) (hr : w = true → Room s wi (.time a v)) :
    Did L U w s (block w s wi [a, Words.hi32 v, Words.lo32 v]) wi (.time a v) D := by
  cases w with
  | false => exact ⟨Same.refl h hD, rfl, by simp, fun _ => ⟨rfl, rfl⟩⟩
  | true =>
    have hr := hr rfl
    simp only [Room, Tree.size] at hr
    refine did_block _ h hD _ rfl (fun _ => hr.1) ?_
    intro code hi hk
    exact .time (by omega) (by omega) (Nat.le_refl _) (by simp) hi (hk 0 _ rfl) (hk 1 _ rfl) (hk 2 _ rfl)

theorem simple_nil {n : NilW} {k : Lit} {s : St} {wi : Nat} {w : Bool} :
    readSimple k e s wi w (.nilw n) = readNil k s wi w (.nilw n) := by
  cases h : readNil k s wi w (.nilw n) <;> simp [readSimple, h, readVar, readRef, readWild, readLiteral]

theorem did_after {s s1 s' : St} {w : Bool} {wi : Nat} {t : Tree} {D D1 : List Name} (h : Same L U s s1 D1) (hc : s1.code = s.code)
    (he : s1.ext = s.ext) (hv : s1.lvl = s.lvl) (hd : Did L U w s1 s' wi t D) : Did L U w s s' wi t D := by
  refine ⟨h.trans hd.same, hd.lvl.trans hv, fun hw => ?_, fun hw => ?_⟩
  · have := hd.wrote hw
    exact ⟨by rw [this.ext, he], fun i a hi hne ha => this.keep i a (by omega) hne (by rw [hc]; exact ha), he ▸ this.reads⟩
  · have := hd.idle hw
    exact ⟨this.1.trans hc, this.2.trans he⟩

theorem nil_lit {l : Lit} {n : NilW} (hl : nilOk (.lit l) n = true) {K : Kind} (h : nilOk K n = true) : litOk l K := by
  cases K with
  | any => trivial
  | lit k => cases l <;> cases n <;> simp [nilOk] at hl <;> cases k <;> simp [nilOk] at h <;> rfl
  | expr c => cases l <;> cases n <;> simp [nilOk] at hl h
  | set p => cases l <;> cases n <;> simp [nilOk] at h

theorem nil_no {l k : Lit} {n : NilW} (hl : nilOk (.lit l) n = true) (hk : k ≠ l) (s : St) (wi : Nat) (w : Bool) :
    readNil k s wi w (.nilw n) = .no s := by
  cases l <;> cases n <;> simp [nilOk] at hl <;> cases k <;> first | rfl | exact absurd rfl hk

/-- Elements without parts are read as they should be. -/
theorem leaf_step {K : Kind} {D D1 : List Name} {x : Syn} {t : Tree} {s : St} {wi : Nat} {w : Bool} (A : Agrees L e)
    (hP : Plain P) (hI : Inv L s) (hL : LvlOk L e s.lvl) (hD : ∀ x ∈ D, x ∈ s.hlp) (h : Leaf P L K D x t D1)
    (hr : w = true → Room s wi t) :
    ∃ s', (∀ f u, readK (f + 4) e s wi w u K x = .yes s') ∧ Did L U w s s' wi t D1 := by
  cases h with
  | @nilw n hn =>
    have key : ∀ l a, nilOk (.lit l) n = true → readNil l s wi w (.nilw n) = .yes (wr w s wi a) → nilTree n = .word a →
        ∃ s', (∀ f u, readK (f + 4) e s wi w u K (.nilw n) = .yes s') ∧ Did L U w s s' wi (nilTree n) D := by
      intro l a hl hy ht
      exact ⟨_, readK_value (l := l) rfl (fun k hk => by rw [simple_nil, nil_no hl hk]) (by rw [simple_nil, hy]) (nil_lit hl hn),
        did_code hI hD a ht⟩
    cases n with
    | nil =>
      refine ⟨wr w s wi Atom.nil, ?_, did_code hI hD _ rfl⟩
      intro f u
      cases K with
      | any =>
        exact readK_object rfl (fun k => by rw [simple_nil]; cases k <;> rfl) (fun _ _ => rfl) (.inl rfl) (K := .any) trivial f u
      | lit k => cases k <;> simp [nilOk] at hn
      | expr c => simp only [readK, readExpr, readNilX, or_yes]
      | set p => simp [nilOk] at hn
    | nb => exact key .number _ rfl rfl rfl
    | ts =>
      refine ⟨_, readK_value (l := .timestamp) rfl (fun k hk => by rw [simple_nil, nil_no rfl hk])
        (by rw [simple_nil]; rfl) (nil_lit rfl hn), ?_⟩
      exact did_time hI hD undefinedTimestamp (BitVec.allOnes 64) hr
    | forever => exact key .number _ rfl rfl rfl
    | nid => exact key .node _ rfl rfl rfl
    | did => exact key .device _ rfl rfl rfl
    | fid => exact key .function _ rfl rfl rfl
    | bl => exact key .boolean _ rfl rfl rfl
    | st => exact key .string _ rfl rfl rfl
  | empty hn =>
    refine ⟨block w s wi [Atom.set 0], ?_, ?_⟩
    · intro f u
      have key : ∀ f b q, readSet (f + 1) e s wi w b q .empty = .yes (block w s wi [Atom.set 0]) := by
        intro f b q; simp [readSet, readNilSet]
      cases K with
      | any =>
        have hs : ∀ k, readSimple k e s wi w .empty = .no s := fun k => by
          simp [readSimple, readNil, readVar, readRef, readWild, readLiteral]
        have no : ∀ k, readLit (f + 3) e s wi w false k .empty = .no s := fun k => readLit_no rfl (hs k) (f + 1)
        have nx : readExpr (f + 3) e s wi w false none .empty = .no s := by
          simp [readExpr, readNilX, readVar, readRef, readWild, exprT_plain (x := .empty) rfl]
        simp [readK, readAny, no, readClass, strip, nx, key]
      | lit k => exact absurd hn id
      | expr c => exact absurd hn id
      | set p => cases p with
        | none => exact key (f + 3) true none
        | some p => obtain ⟨c, i⟩ := p; exact key (f + 3) true (some (c, u))
    · cases w with
      | false => exact ⟨Same.refl hI hD, rfl, by simp, fun _ => ⟨rfl, rfl⟩⟩
      | true =>
        have hr := hr rfl
        simp only [Room, Tree.size, sizes] at hr
        refine did_block _ hI hD _ rfl (fun _ => hr.1) ?_
        intro code hi hk
        exact .node (by omega) (by omega) (Nat.le_refl _) (by simp) hi (hk 0 _ rfl) (by decide) (fun k t hk => by simp at hk)
  | this hn =>
    refine ⟨_, readK_object rfl ?_ (fun _ _ => rfl) (.inr ⟨rfl, by simp only [readRef, true_or, if_true]⟩) hn, did_code hI hD _ rfl⟩
    intro k
    simp [readSimple, readNil, readVar, readRef, readWild, readLiteral, ret_ne_any, A.cur, Ne.symm (ret_ne_any k)]
  | num hn =>
    refine ⟨_, readK_value (l := .number) rfl ?_ ?_ hn, did_code hI hD _ rfl⟩
    · intro k hk
      simp [readSimple, readNil, readVar, readRef, readWild, readLiteral, hk]
    · simp only [readSimple, readNil, readVar, readRef, readWild, readLiteral, or_no, if_true]
  | ts hn =>
    refine ⟨_, readK_value (l := .timestamp) rfl ?_ ?_ hn, did_time hI hD _ _ hr⟩
    · intro k hk
      simp [readSimple, readNil, readVar, readRef, readWild, readLiteral, hk]
    · simp only [readSimple, readNil, readVar, readRef, readWild, readLiteral, or_no, if_true]
  | dur hn =>
    refine ⟨_, readK_value (l := .duration) rfl ?_ ?_ hn, did_time hI hD _ _ hr⟩
    · intro k hk
      simp [readSimple, readNil, readVar, readRef, readWild, readLiteral, hk]
    · simp only [readSimple, readNil, readVar, readRef, readWild, readLiteral, or_no, if_true]
  | @str c hn hl hs =>
    refine ⟨block w s wi (Atom.string (BitVec.ofNat 8 c.length) :: strWords c), readK_value (l := .string) rfl ?_ ?_ hn, ?_⟩
    · intro k hk
      simp [readSimple, readNil, readVar, readRef, readWild, readLiteral, hk]
    · simp only [readSimple, readNil, readVar, readRef, readWild, readLiteral, or_no, if_true]
    · cases w with
      | false => exact ⟨Same.refl hI hD, rfl, by simp, fun _ => ⟨rfl, rfl⟩⟩
      | true =>
        have hr := hr rfl
        simp only [Room, Tree.size] at hr
        have hlen := strWords_length c
        refine did_block _ hI hD _ (by simp [Tree.size, hlen]; omega) (fun _ => hr.1) ?_
        intro code hi hk
        refine .str (j := s.ext) (by omega) (by omega) (Nat.le_refl _) (by simp [hlen]; omega) hi hl (hk 0 _ rfl) ?_
        intro k b hb
        obtain ⟨v, hv, hvb⟩ := strWords_byte c (hP.str c hs) k b hb
        exact ⟨v, by rw [show s.ext + 1 + k / 4 = s.ext + (k / 4 + 1) by omega]; exact hk (k / 4 + 1) v (by simpa using hv), hvb⟩
  | bool hn =>
    refine ⟨_, readK_value (l := .boolean) rfl ?_ ?_ hn, did_code hI hD _ rfl⟩
    · intro k hk
      simp [readSimple, readNil, readVar, readRef, readWild, readLiteral, hk]
    · simp only [readSimple, readNil, readVar, readRef, readWild, readLiteral, or_no, if_true]
  | node hn hd =>
    refine ⟨_, readK_value (l := .node) rfl ?_ ?_ hn, did_code hI hD _ rfl⟩
    · intro k hk
      simp [readSimple, readNil, readVar, readRef, readWild, readLiteral, hk, hd]
    · simp only [readSimple, readNil, readVar, readRef, readWild, readLiteral, or_no, hd, and_self, true_or, if_true]
  | device hn hd =>
    refine ⟨_, readK_value (l := .device) rfl ?_ ?_ hn, did_code hI hD _ rfl⟩
    · intro k hk
      simp [readSimple, readNil, readVar, readRef, readWild, readLiteral, hk, hd]
    · simp only [readSimple, readNil, readVar, readRef, readWild, readLiteral, or_no, hd, and_self, or_true, if_true]
  | wild hv =>
    have hl : s.lvl > 0 ∨ e.allow = true := by
      rcases hL with h | h
      · exact .inl h
      · exact .inr (h.2 hv)
    refine ⟨wr w s wi (wildcard 0), fun f u => readK_first (fun t op => .inr ⟨rfl, fun t => .inr ⟨rfl, ?_⟩⟩) (by simp) (by simp) _ u K,
      did_code hI hD _ rfl⟩
    simp only [readWild, hl, if_true]
  | @var x hv hg hc hx =>
    have hl : s.lvl > 0 ∨ e.allow = true := by
      rcases hL with h | h
      · exact .inl h
      · exact .inr (h.2 hv)
    obtain ⟨i, s1, h1, h2, h3, h4, h5, h6, h7, h8⟩ := addHlp_some (U := U) A hI hD hx hg hc
    refine ⟨wr w s1 wi (vlPointer (BitVec.ofNat 16 i)), fun f u => readK_first (fun t op => .inl ?_) (by simp) (by simp) _ u K,
      did_after h4 h5 h6 h8 (did_word _ h4.inv h4.dom _ rfl (.var h2 (Words.put_get_self _ _ _) h3))⟩
    simp only [readVar, hl, if_true, A.vars hv, h1]
  | @nameVar x b hx hb =>
    cases hP.close b hb
    have hm := hD x hx
    have := hI.hlp_lt A
    have := List.idxOf_lt_length_of_mem hm
    refine ⟨_, fun f u => readK_first (fun t op => .inr ⟨rfl, fun t => .inl (ref_var A hI hm)⟩) (by simp) (by simp) _ u K,
      did_word _ hI hD _ rfl (.var (by omega) (Words.put_get_self _ _ _) (idxOf_get hm))⟩
  | @nameObj x b o t hn hg hc ho =>
    have hx : x ∉ s.hlp := fun hx => by have := (hI.names x hx).2.1; rw [hg] at this; exact absurd this (by simp)
    obtain ⟨i, s1, h1, h2, h3, h4, h5, h6, h7, h8⟩ := refIndex_spec (U := U) A hI hD ho
    refine ⟨wr w s1 wi (rPointer (BitVec.ofNat 16 i)), readK_object rfl ?_ (fun _ _ => rfl) (.inr ⟨rfl, ?_⟩) hn,
      did_after h4 h5 h6 h8 (did_word _ h4.inv h4.dom _ rfl (.obj h2 (Words.put_get_self _ _ _) h3))⟩
    · intro k
      simp [readSimple, readNil, readVar, ref_no A hI hx (ret_ne_any k), readWild, readLiteral, A.classes, hc]
    · simp only [readRef, hI.locals, readGlobalRef, A.globals, hg, true_or, if_true, h1]
  | @nameFn x b c hn hc hb =>
    cases hP.close b hb
    have hx : x ∉ s.hlp := fun hx => by have := (hI.names x hx).2.2; rw [hc] at this; exact absurd this (by simp)
    refine ⟨_, readK_value (l := .function) rfl ?_ ?_ hn, did_code hI hD _ rfl⟩
    · intro k hk
      simp [readSimple, readNil, readVar, ref_no A hI hx (ret_ne_any k), readWild, readLiteral, hk]
    · simp only [readSimple, readNil, readVar, ref_no A hI hx (ret_ne_any .function), readWild, readLiteral, or_no, A.classes, hc]
      simp only [Bool.false_eq_true, not_false_eq_true, and_self, if_true]

end Verif.Compile
