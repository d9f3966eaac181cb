import Verif.Compile.Spec
import Verif.Words.Lemmas
import Mathlib.Data.List.Nodup
import Mathlib.Data.List.Perm.Subperm

/-! # Lemmas on code, states and elements without parts -/
namespace Verif.Compile
open Verif.Macro Verif.Classes Verif.Atom

/-! ## Writing code -/

theorem put_keep {c : List Word} {i j : Nat} {w a : Word} (h : i ≠ j) (hj : c[j]? = some a) :
    (Words.put c i w)[j]? = some a := by
  rw [Words.put_get c i j w h (List.getElem?_eq_some_iff.1 hj).1, hj]

/-- Words from a cell on. -/
def putAll (c : List Word) (i : Nat) : List Word → List Word
  | [] => c
  | a :: r => putAll (Words.put c i a) (i + 1) r

theorem putAll_keep {ws : List Word} : ∀ {c : List Word} {i j : Nat} {a : Word}, (j < i ∨ i + ws.length ≤ j) → c[j]? = some a →
    (putAll c i ws)[j]? = some a := by
  induction ws with
  | nil => intro c i j a _ h; exact h
  | cons b r ih =>
    intro c i j a hj h
    simp only [List.length_cons] at hj
    exact ih (by omega) (put_keep (by omega) h)

theorem putAll_get {ws : List Word} : ∀ {c : List Word} {i k : Nat} {a : Word}, ws[k]? = some a → (putAll c i ws)[i + k]? = some a := by
  induction ws with
  | nil => intro c i k a h; simp at h
  | cons b r ih =>
    intro c i k a h
    cases k with
    | zero =>
      simp only [List.getElem?_cons_zero, Option.some.injEq] at h; subst h
      exact putAll_keep (c := Words.put c i b) (i := i + 1) (.inl (by omega)) (Words.put_get_self c i b)
    | succ k =>
      simp only [List.getElem?_cons_succ] at h
      have := ih (c := Words.put c i b) (i := i + 1) h
      rwa [show i + (k + 1) = i + 1 + k by omega]

theorem app_eq (ws : List Word) : ∀ s : St, app s ws = { s with code := putAll s.code s.ext ws, ext := s.ext + ws.length } := by
  induction ws with
  | nil => intro s; rfl
  | cons a r ih =>
    intro s
    simp only [app, ih, putAll, List.length_cons]
    congr 1; omega

theorem fill_eq (n : Nat) : ∀ (s : St) (i : Nat),
    fill s i n = { s with code := putAll s.code i (List.replicate n (wildcard 0)) } := by
  induction n with
  | zero => intro s i; rfl
  | succ n ih => intro s i; simp only [fill, ih, List.replicate_succ, putAll]

/-! ## Reading within bounds -/

/-- `Reads`, with pointers to cells from `lo` to `hi` only. -/
inductive ReadsIn (code : List Word) (H : List Name) (R : List Nat) (lo hi : Nat) : Nat → Tree → Prop
  | word {i w} (h : code[i]? = some w) : ReadsIn code H R lo hi i (.word w)
  | var {i x k} (hk : k < 256) (h : code[i]? = some (vlPointer (BitVec.ofNat 16 k))) (hx : H[k]? = some x) :
      ReadsIn code H R lo hi i (.var x)
  | obj {i o k} (hk : k < 4096) (h : code[i]? = some (rPointer (BitVec.ofNat 16 k))) (ho : R[k]? = some o) :
      ReadsIn code H R lo hi i (.obj o)
  | time {i a v j} (hj : j < 4096) (hij : i < j) (hlo : lo ≤ j) (hhi : j + 3 ≤ hi)
      (h : code[i]? = some (iPointer (BitVec.ofNat 16 j))) (ha : code[j]? = some a)
      (h1 : code[j + 1]? = some (Words.hi32 v)) (h2 : code[j + 2]? = some (Words.lo32 v)) : ReadsIn code H R lo hi i (.time a v)
  | str {i s j} (hj : j < 4096) (hij : i < j) (hlo : lo ≤ j) (hhi : j + 1 + (s.length + 3) / 4 ≤ hi)
      (h : code[i]? = some (iPointer (BitVec.ofNat 16 j))) (hl : s.length < 256)
      (ha : code[j]? = some (Atom.string (BitVec.ofNat 8 s.length)))
      (hs : ∀ k b, s[k]? = some b → ∃ w, code[j + 1 + k / 4]? = some w ∧ (w >>> (8 * (k % 4))).setWidth 8 = b) :
      ReadsIn code H R lo hi i (.str s)
  | node {i a kids j} (hj : j < 4096) (hij : i < j) (hlo : lo ≤ j) (hhi : j + 1 + kids.length ≤ hi)
      (h : code[i]? = some (iPointer (BitVec.ofNat 16 j))) (ha : code[j]? = some a)
      (hn : (getAtomCount a).toNat = kids.length)
      (hk : ∀ (k : Nat) t, kids[k]? = some t → ReadsIn code H R lo hi (j + 1 + k) t) : ReadsIn code H R lo hi i (.node none a kids)
  | assign {i x v a kids j} (hj : j < 4096) (hij : i < j) (hlo : lo ≤ j) (hhi : j + 1 + kids.length ≤ hi)
      (hv : v < 255) (hx : H[v]? = some x)
      (h : code[i]? = some (assignmentPointer (BitVec.ofNat 8 v) (BitVec.ofNat 16 j))) (ha : code[j]? = some a)
      (hn : (getAtomCount a).toNat = kids.length)
      (hk : ∀ (k : Nat) t, kids[k]? = some t → ReadsIn code H R lo hi (j + 1 + k) t) :
      ReadsIn code H R lo hi i (.node (some x) a kids)

theorem ReadsIn.reads {code H R lo hi i t} (h : ReadsIn code H R lo hi i t) : Reads code H R i t := by
  induction h with
  | word h => exact .word h
  | var hk h hx => exact .var hk h hx
  | obj hk h ho => exact .obj hk h ho
  | time hj hij _ _ h ha h1 h2 => exact .time hj hij h ha (Words.getInt64_of h1 h2)
  | str hj hij _ _ h hl ha hs => exact .str hj hij h hl ha hs
  | node hj hij _ _ h ha hn _ ih => exact .node hj hij h ha hn ih
  | assign hj hij _ _ hv hx h ha hn _ ih => exact .assign hj hij hv hx h ha hn ih

theorem prefix_get {α : Type} {l l' : List α} (h : l <+: l') {k : Nat} {a : α} (hk : l[k]? = some a) : l'[k]? = some a := by
  obtain ⟨r, rfl⟩ := h
  rw [List.getElem?_append_left (List.getElem?_eq_some_iff.1 hk).1, hk]

theorem ReadsIn.mono {code H R lo hi i t} (h : ReadsIn code H R lo hi i t) {code' H' R' lo' hi'}
    (hc : ∀ j a, (j = i ∨ (lo ≤ j ∧ j < hi)) → code[j]? = some a → code'[j]? = some a) (hH : H <+: H') (hR : R <+: R')
    (hlo : lo' ≤ lo) (hhi : hi ≤ hi') : ReadsIn code' H' R' lo' hi' i t := by
  induction h with
  | word h => exact .word (hc _ _ (.inl rfl) h)
  | var hk h hx => exact .var hk (hc _ _ (.inl rfl) h) (prefix_get hH hx)
  | obj hk h ho => exact .obj hk (hc _ _ (.inl rfl) h) (prefix_get hR ho)
  | time hj hij h1 h2 h ha h3 h4 =>
    exact .time hj hij (by omega) (by omega) (hc _ _ (.inl rfl) h) (hc _ _ (.inr (by omega)) ha) (hc _ _ (.inr (by omega)) h3)
      (hc _ _ (.inr (by omega)) h4)
  | @str i s j hj hij h1 h2 h hl ha hs =>
    refine .str hj hij (by omega) (by omega) (hc _ _ (.inl rfl) h) hl (hc _ _ (.inr (by omega)) ha) ?_
    intro k b hb
    obtain ⟨w, hw, hwb⟩ := hs k b hb
    have := (List.getElem?_eq_some_iff.1 hb).1
    exact ⟨w, hc _ _ (.inr (by omega)) hw, hwb⟩
  | @node i a kids j hj hij h1 h2 h ha hn _ ih =>
    refine .node hj hij (by omega) (by omega) (hc _ _ (.inl rfl) h) (hc _ _ (.inr (by omega)) ha) hn ?_
    intro k t hk
    have := (List.getElem?_eq_some_iff.1 hk).1
    refine ih k t hk fun j' a' hj' h' => hc j' a' ?_ h'
    rcases hj' with rfl | hj'
    · exact .inr (by omega)
    · exact .inr hj'
  | @assign i x v a kids j hj hij h1 h2 hv hx h ha hn _ ih =>
    refine .assign hj hij (by omega) (by omega) hv (prefix_get hH hx) (hc _ _ (.inl rfl) h) (hc _ _ (.inr (by omega)) ha) hn ?_
    intro k t hk
    have := (List.getElem?_eq_some_iff.1 hk).1
    refine ih k t hk fun j' a' hj' h' => hc j' a' ?_ h'
    rcases hj' with rfl | hj'
    · exact .inr (by omega)
    · exact .inr hj'

/-! ## States -/

/-- What holds of the state all along. -/
structure Inv (L : Lang) (s : St) : Prop where
  nodup : s.hlp.Nodup
  names : ∀ x ∈ s.hlp, x ∈ L.names ∧ L.globals x = none ∧ L.classes x = none
  rnodup : s.refs.Nodup
  objs : ∀ o ∈ s.refs, o ∈ L.objs
  locals : s.locals = fun _ => none
  noArity : s.noArity = false

/-- Inside of patterns, or where it does not matter. -/
def LvlOk (L : Lang) (e : Env) (n : Nat) : Prop := n > 0 ∨ (L.pat = false ∧ (L.vars = true → e.allow = true))

/-- The language is that of the compiler. -/
structure Agrees (L : Lang) (e : Env) : Prop where
  classes : e.classes = L.classes
  sys : e.sys = L.sys
  globals : e.globals = L.globals
  inHlp : e.inHlp = L.inHlp
  vars : L.vars = true → e.inHlp = true ∨ (e.allow = true ∧ e.cur.name ≠ "pgm".toList)
  pat : L.pat = true → e.inHlp = true
  cur : e.cur.type = .any
  types : ∀ x o t, L.globals x = some (o, t) → t = .any
  sub : ∀ x c, L.sys x = some c → c.type = .any
  names : L.names.length < 256
  objs : L.objs.length ≤ 4096

/-- What reading changes apart from the code; classes used in the ways of `U` stay so. -/
structure Same (L : Lang) (U : Name → Iter → Prop) (s s' : St) (D : List Name) : Prop where
  inv : Inv L s'
  dom : ∀ x ∈ D, x ∈ s'.hlp
  hlp : s.hlp <+: s'.hlp
  refs : s.refs <+: s'.refs
  use : ∀ n i, U n i → s.useAs n = i → s'.useAs n = i

/-- What reading does to the code. -/
structure Wrote (s s' : St) (wi : Nat) (t : Tree) : Prop where
  ext : s'.ext = s.ext + t.size
  keep : ∀ i a, i < s.ext → i ≠ wi → s.code[i]? = some a → s'.code[i]? = some a
  reads : ReadsIn s'.code s'.hlp s'.refs s.ext s'.ext wi t

/-- The cell and the room that are needed. -/
def Room (s : St) (wi : Nat) (t : Tree) : Prop := wi < s.ext ∧ s.ext + t.size ≤ 4096

/-- The change is the right one, of the code only if it is written. -/
structure Did (L : Lang) (U : Name → Iter → Prop) (w : Bool) (s s' : St) (wi : Nat) (t : Tree) (D : List Name) : Prop where
  same : Same L U s s' D
  lvl : s'.lvl = s.lvl
  wrote : w = true → Wrote s s' wi t
  idle : w = false → s'.code = s.code ∧ s'.ext = s.ext

theorem Inv.hlp_lt {L : Lang} {e : Env} {s : St} (A : Agrees L e) (h : Inv L s) : s.hlp.length < 256 :=
  Nat.lt_of_le_of_lt (List.subperm_of_subset h.nodup fun x hx => (h.names x hx).1).length_le A.names

theorem Inv.refs_le {L : Lang} {e : Env} {s : St} (A : Agrees L e) (h : Inv L s) : s.refs.length ≤ 4096 :=
  Nat.le_trans (List.subperm_of_subset h.rnodup fun x hx => h.objs x hx).length_le A.objs

theorem Same.refl {L U s D} (h : Inv L s) (hD : ∀ x ∈ D, x ∈ s.hlp) : Same L U s s D :=
  ⟨h, hD, List.prefix_rfl, List.prefix_rfl, fun _ _ _ h => h⟩

theorem Same.trans {L U s s' s'' D D'} (h : Same L U s s' D) (h' : Same L U s' s'' D') : Same L U s s'' D' :=
  ⟨h'.inv, h'.dom, h.hlp.trans h'.hlp, h.refs.trans h'.refs, fun n i hi hn => h'.use n i hi (h.use n i hi hn)⟩

theorem Same.mono {L s s' D} {U V : Name → Iter → Prop} (h : Same L V s s' D) (hU : ∀ n i, U n i → V n i) : Same L U s s' D :=
  ⟨h.inv, h.dom, h.hlp, h.refs, fun n i hi => h.use n i (hU n i hi)⟩

theorem Did.mono {L w s s' wi t D} {U V : Name → Iter → Prop} (h : Did L V w s s' wi t D) (hU : ∀ n i, U n i → V n i) :
    Did L U w s s' wi t D :=
  ⟨h.same.mono hU, h.lvl, h.wrote, h.idle⟩

/-- A single word in the cell. -/
theorem did_word {L U w s wi D} (a : Word) (h : Inv L s) (hD : ∀ x ∈ D, x ∈ s.hlp) (t : Tree) (h0 : t.size = 0)
    (ht : ReadsIn (Words.put s.code wi a) s.hlp s.refs s.ext s.ext wi t) : Did L U w s (wr w s wi a) wi t D := by
  cases w with
  | false => exact ⟨Same.refl h hD, rfl, by simp, fun _ => ⟨rfl, rfl⟩⟩
  | true =>
    refine ⟨⟨⟨h.nodup, h.names, h.rnodup, h.objs, h.locals, h.noArity⟩, hD, List.prefix_rfl, List.prefix_rfl, fun _ _ _ h => h⟩, rfl,
      fun _ => ⟨by simp [wr, h0], ?_, ht⟩, by simp⟩
    intro i b _ hi hb
    exact put_keep (Ne.symm hi) hb

/-- A pointer in the cell and words at the end. -/
theorem did_block {L U w s wi D} (ws : List Word) (h : Inv L s) (hD : ∀ x ∈ D, x ∈ s.hlp) (t : Tree) (h0 : t.size = ws.length)
    (hwi : w = true → wi < s.ext)
    (ht : ∀ code : List Word, code[wi]? = some (iPointer (BitVec.ofNat 16 s.ext)) →
      (∀ (k : Nat) a, ws[k]? = some a → code[s.ext + k]? = some a) →
      ReadsIn code s.hlp s.refs s.ext (s.ext + ws.length) wi t) : Did L U w s (block w s wi ws) wi t D := by
  cases w with
  | false => exact ⟨Same.refl h hD, rfl, by simp, fun _ => ⟨rfl, rfl⟩⟩
  | true =>
    have hwi := hwi rfl
    simp only [block, if_true, app_eq]
    refine ⟨⟨⟨h.nodup, h.names, h.rnodup, h.objs, h.locals, h.noArity⟩, hD, List.prefix_rfl, List.prefix_rfl, fun _ _ _ h => h⟩, rfl,
      fun _ => ⟨by simp [h0], ?_, ?_⟩, by simp⟩
    · intro i b hi hne hb
      exact putAll_keep (.inl hi) (put_keep (Ne.symm hne) hb)
    · exact ht _ (putAll_keep (.inl hwi) (Words.put_get_self _ _ _)) fun k a hk => putAll_get hk

theorem idxOf_get {α : Type} [BEq α] [LawfulBEq α] {l : List α} {x : α} (h : x ∈ l) : l[l.idxOf x]? = some x := by
  rw [List.getElem?_eq_getElem (List.idxOf_lt_length_of_mem h), List.getElem_idxOf]

/-- A variable gets its number. -/
theorem addHlp_some {L : Lang} {e : Env} {U : Name → Iter → Prop} {s : St} {x : Name} {D : List Name} (A : Agrees L e) (h : Inv L s)
    (hD : ∀ x ∈ D, x ∈ s.hlp) (hx : x ∈ L.names) (hg : L.globals x = none) (hc : L.classes x = none) :
    ∃ i s', addHlp s x = some (i, s') ∧ i < 256 ∧ s'.hlp[i]? = some x ∧ Same L U s s' (x :: D) ∧ s'.code = s.code ∧
      s'.ext = s.ext ∧ s'.refs = s.refs ∧ s'.lvl = s.lvl := by
  have hlt := h.hlp_lt A
  by_cases hm : x ∈ s.hlp
  · have hi := List.idxOf_lt_length_of_mem hm
    refine ⟨s.hlp.idxOf x, s, by simp [addHlp, hi, show s.hlp.idxOf x < 256 by omega], by omega, idxOf_get hm, ?_, rfl, rfl, rfl, rfl⟩
    exact Same.refl h fun y hy => by rcases List.mem_cons.1 hy with rfl | hy; exact hm; exact hD y hy
  · have hi : ¬ s.hlp.idxOf x < s.hlp.length := fun hh => hm (List.idxOf_lt_length_iff.1 hh)
    refine ⟨s.hlp.length, { s with hlp := s.hlp ++ [x] }, by simp [addHlp, hi, hlt], hlt, by simp, ?_, rfl, rfl, rfl, rfl⟩
    refine ⟨⟨?_, ?_, h.rnodup, h.objs, h.locals, h.noArity⟩, ?_, List.prefix_append _ _, List.prefix_rfl, fun _ _ _ h => h⟩
    · exact List.nodup_append.2 ⟨h.nodup, List.nodup_singleton x, fun a ha b hb => by
        rw [List.mem_singleton] at hb; subst hb; rintro rfl; exact hm ha⟩
    · intro y hy
      rcases List.mem_append.1 hy with hy | hy
      · exact h.names y hy
      · rw [List.mem_singleton] at hy; subst hy; exact ⟨hx, hg, hc⟩
    · intro y hy
      rcases List.mem_cons.1 hy with rfl | hy
      · simp
      · exact List.mem_append_left _ (hD y hy)

/-- An object gets its number. -/
theorem refIndex_spec {L : Lang} {e : Env} {U : Name → Iter → Prop} {s : St} {o : Nat} {D : List Name} (A : Agrees L e) (h : Inv L s)
    (hD : ∀ x ∈ D, x ∈ s.hlp) (ho : o ∈ L.objs) :
    ∃ i s', refIndex s o = (i, s') ∧ i < 4096 ∧ s'.refs[i]? = some o ∧ Same L U s s' D ∧ s'.code = s.code ∧
      s'.ext = s.ext ∧ s'.hlp = s.hlp ∧ s'.lvl = s.lvl := by
  by_cases hm : o ∈ s.refs
  · have hi := List.idxOf_lt_length_of_mem hm
    have := h.refs_le A
    exact ⟨s.refs.idxOf o, s, by simp [refIndex, hi], by omega, idxOf_get hm, Same.refl h hD, rfl, rfl, rfl, rfl⟩
  · have hi : ¬ s.refs.idxOf o < s.refs.length := fun hh => hm (List.idxOf_lt_length_iff.1 hh)
    have hI : Inv L { s with refs := s.refs ++ [o] } := by
      refine ⟨h.nodup, h.names, ?_, ?_, h.locals, h.noArity⟩
      · exact List.nodup_append.2 ⟨h.rnodup, List.nodup_singleton o, fun a ha b hb => by
          rw [List.mem_singleton] at hb; subst hb; rintro rfl; exact hm ha⟩
      · intro y hy
        rcases List.mem_append.1 hy with hy | hy
        · exact h.objs y hy
        · rw [List.mem_singleton] at hy; subst hy; exact ho
    have := hI.refs_le A
    simp only [List.length_append, List.length_singleton] at this
    exact ⟨s.refs.length, _, by simp [refIndex, hi], by omega, by simp,
      ⟨hI, hD, List.prefix_rfl, List.prefix_append _ _, fun _ _ _ h => h⟩, rfl, rfl, rfl, rfl⟩

/-! ## Strings -/

theorem signExtend_small (x : BitVec 8) (hx : x.toNat < 128) : x.signExtend 32 = x.setWidth 32 :=
  BitVec.signExtend_eq_setWidth_of_msb_false (by rw [BitVec.msb_eq_decide]; simp; omega)

theorem pack_low (l : List (BitVec 8)) : ∀ sh i, i < sh → (pack sh l).getLsbD i = false := by
  induction l with
  | nil => intro sh i _; simp [pack]
  | cons a r ih =>
    intro sh i hi
    simp [pack, ih (sh + 8) i (by omega), hi]

theorem pack_byte (l : List (BitVec 8)) (hl : ∀ b ∈ l, b.toNat < 128) (k : Nat) (b : BitVec 8) (h : l[k]? = some b) :
    ∀ sh, sh + 8 * l.length ≤ 32 → (pack sh l >>> (sh + 8 * k)).setWidth 8 = b := by
  induction l generalizing k with
  | nil => simp at h
  | cons a r ih =>
    intro sh hsh
    have ha := signExtend_small a (hl a (by simp))
    simp only [List.length_cons] at hsh
    cases k with
    | zero =>
      simp only [List.getElem?_cons_zero, Option.some.injEq] at h; subst h
      apply BitVec.eq_of_getLsbD_eq
      intro i hi
      simp only [pack, ha, Nat.mul_zero, Nat.add_zero, BitVec.getLsbD_setWidth, BitVec.getLsbD_ushiftRight, BitVec.getLsbD_or,
        BitVec.getLsbD_shiftLeft, pack_low r (sh + 8) (sh + i) (by omega)]
      simp only [hi, show sh + i < 32 by omega, show ¬ sh + i < sh by omega, show sh + i - sh = i by omega, show i < 32 by omega]
      simp
    | succ k =>
      simp only [List.getElem?_cons_succ] at h
      rw [← ih (fun b hb => hl b (by simp [hb])) k h (sh + 8) (by omega)]
      apply BitVec.eq_of_getLsbD_eq
      intro i hi
      simp only [pack, ha, BitVec.getLsbD_setWidth, BitVec.getLsbD_ushiftRight, BitVec.getLsbD_or, BitVec.getLsbD_shiftLeft]
      rw [BitVec.getLsbD_of_ge a _ (by omega), show sh + 8 * (k + 1) + i = sh + 8 + 8 * k + i by omega]
      simp

theorem strWords_length : ∀ s : List (BitVec 8), (strWords s).length = (s.length + 3) / 4
  | a :: b :: c :: d :: r => by simp [strWords, strWords_length r]; omega
  | [] => rfl
  | [a] => by simp [strWords]
  | [a, b] => by simp [strWords]
  | [a, b, c] => by simp [strWords]

theorem strWords_byte : ∀ (s : List (BitVec 8)), (∀ b ∈ s, b.toNat < 128) → ∀ (k : Nat) b, s[k]? = some b →
    ∃ w, (strWords s)[k / 4]? = some w ∧ (w >>> (8 * (k % 4))).setWidth 8 = b
  | [], _, k, b, h => by simp at h
  | [x], hs, k, b, h => by
    have hk : k < 1 := (List.getElem?_eq_some_iff.1 h).1
    refine ⟨pack 0 [x], by rw [show k / 4 = 0 by omega]; rfl, ?_⟩
    have := pack_byte [x] hs k b h 0 (by simp)
    rwa [Nat.zero_add, show 8 * k = 8 * (k % 4) by omega] at this
  | [x, y], hs, k, b, h => by
    have hk : k < 2 := (List.getElem?_eq_some_iff.1 h).1
    refine ⟨pack 0 [x, y], by rw [show k / 4 = 0 by omega]; rfl, ?_⟩
    have := pack_byte [x, y] hs k b h 0 (by simp)
    rwa [Nat.zero_add, show 8 * k = 8 * (k % 4) by omega] at this
  | [x, y, z], hs, k, b, h => by
    have hk : k < 3 := (List.getElem?_eq_some_iff.1 h).1
    refine ⟨pack 0 [x, y, z], by rw [show k / 4 = 0 by omega]; rfl, ?_⟩
    have := pack_byte [x, y, z] hs k b h 0 (by simp)
    rwa [Nat.zero_add, show 8 * k = 8 * (k % 4) by omega] at this
  | x :: y :: z :: u :: r, hs, k, b, h => by
    by_cases hk : k < 4
    · refine ⟨pack 0 [x, y, z, u], by rw [show k / 4 = 0 by omega]; rfl, ?_⟩
      have h' : [x, y, z, u][k]? = some b := by
        rw [show x :: y :: z :: u :: r = [x, y, z, u] ++ r from rfl, List.getElem?_append_left (by simpa using hk)] at h
        exact h
      have := pack_byte [x, y, z, u] (fun b hb => hs b (by simp at hb ⊢; tauto)) k b h' 0 (by simp)
      rwa [Nat.zero_add, show 8 * k = 8 * (k % 4) by omega] at this
    · obtain ⟨j, rfl⟩ : ∃ j, k = j + 4 := ⟨k - 4, by omega⟩
      obtain ⟨w, hw, hb⟩ := strWords_byte r (fun b hb => hs b (by simp [hb])) j b (by simpa using h)
      refine ⟨w, ?_, ?_⟩
      · rw [show (j + 4) / 4 = j / 4 + 1 by omega]; exact hw
      · rwa [show (j + 4) % 4 = j % 4 by omega]

end Verif.Compile
