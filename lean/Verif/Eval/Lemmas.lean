import Verif.Eval.Spec
import Verif.Ins.Props
/-!
# Evaluation: what is kept, what is done
-/
namespace Verif.Eval
open Verif.Atom Verif.Ctx

/-- A pointer into the code points to this operator. -/
def Pointed (m : Mem) (j : Nat) : Prop := m.at ⟨.stem, j⟩ = some .op ∧ ∃ i, m.at ⟨.stem, i⟩ = some (.iptr j)

/-- No pointer points to what looks like an operator among the words of a timestamp, a duration, a string or a
chain. -/
def apart (m : Mem) : Prop := ∀ i j n, m.at ⟨.stem, i⟩ = some (.raw n) ∨ m.at ⟨.stem, i⟩ = some (.cptr n) → Pointed m j → ¬ (i < j ∧ j ≤ i + n)

structure Keep (m m' : Mem) : Prop where
  word : ∀ c w, m.word c = some w → kind w ≠ .op → m'.word c = some w
  body : ∀ c n i w, m.at c = some (.raw n) ∨ m.at c = some (.cptr n) → 1 ≤ i → i ≤ n → m.word (c.child i) = some w → m'.word (c.child i) = some w
  objs : m'.objs = m.objs
  pgm : m'.pgm = m.pgm
  ipgm : m'.ipgm = m.ipgm
  inputs : m'.inputs = m.inputs
  prods : m'.prods = m.prods

theorem Keep.at {m m' : Mem} (K : Keep m m') {c : Ctx} {k : Kind} (h : m.at c = some k) (hk : k ≠ .op) : m'.at c = some k := by
  rw [Mem.at, Option.map_eq_some_iff] at h
  obtain ⟨w, hw, rfl⟩ := h
  rw [Mem.at, K.word c w hw hk]
  rfl

theorem Keep.object {m m' : Mem} (K : Keep m m') (c : Ctx) : m'.object c = m.object c := by
  unfold Mem.object
  rw [K.pgm]

theorem Keep.final {m m' : Mem} (K : Keep m m') {c : Ctx} (h : Final m c) : Final m' c := by
  obtain ⟨k, h1, h2⟩ := h
  exact ⟨k, K.at h1 (by rintro rfl; cases h2), h2⟩

theorem wordsAt_get {m : Mem} {c : Ctx} : ∀ {n i : Nat} {ws : List Word}, wordsAt m c i n = some ws ↔ (ws.length = n ∧ ∀ t < n, m.word (c.child (i + t)) = ws[t]?) := by
  intro n
  induction n with
  | zero =>
    intro i ws
    constructor
    · intro h; cases h; exact ⟨rfl, fun t ht => absurd ht (by omega)⟩
    · rintro ⟨h, _⟩; rw [List.length_eq_zero_iff] at h; subst h; rfl
  | succ n ih =>
    intro i ws
    simp only [wordsAt, Option.bind_eq_some_iff, Option.map_eq_some_iff]
    constructor
    · rintro ⟨w, h1, us, h2, rfl⟩
      obtain ⟨e, h3⟩ := ih.mp h2
      refine ⟨by rw [List.length_cons, e], fun t ht => ?_⟩
      cases t with
      | zero => exact h1
      | succ t =>
        have := h3 t (by omega)
        rw [List.getElem?_cons_succ, ← this]
        congr 2
        omega
    · rintro ⟨h, h2⟩
      cases ws with
      | nil => cases h
      | cons w us =>
        refine ⟨w, h2 0 (by omega), us, ih.mpr ⟨by simpa using h, fun t ht => ?_⟩, rfl⟩
        have := h2 (t + 1) (by omega)
        rw [List.getElem?_cons_succ] at this
        rw [← this]
        congr 2
        omega

theorem Keep.words {m m' : Mem} (K : Keep m m') {c : Ctx} {n i l : Nat} {ws : List Word} (h : m.at c = some (.raw n) ∨ m.at c = some (.cptr n))
    (h1 : 1 ≤ i) (h2 : l = 0 ∨ i + l ≤ n + 1) (hw : wordsAt m c i l = some ws) : wordsAt m' c i l = some ws := by
  rw [wordsAt_get] at hw ⊢
  refine ⟨hw.1, fun t ht => ?_⟩
  have e := hw.2 t ht
  rw [← e]
  have hl : t < ws.length := by omega
  rw [List.getElem?_eq_getElem hl] at e
  rw [e]
  exact K.body c n (i + t) _ h (by omega) (by omega) e

theorem words_eq (m : Mem) (d : Ctx) : ∀ n i, words m d i n = wordsAt m d i n := by
  intro n
  induction n with
  | zero => intro i; rfl
  | succ n ih => intro i; simp only [words, wordsAt, ih]

theorem is_word {m : Mem} {d : Ctx} {h : Word} {ws : List Word} {n : Nat} (e : wordsAt m d 0 (n + 1) = some (h :: ws)) :
    m.word d = some h ∧ wordsAt m d 1 n = some ws := by
  simp only [wordsAt, Option.bind_eq_some_iff, Option.map_eq_some_iff] at e
  obtain ⟨w, h1, us, h2, h3⟩ := e
  cases h3
  exact ⟨h1, h2⟩

theorem operand_is {m : Mem} {d : Ctx} {o : Opd} (h : Is m d o) : operand m d = some o := by
  obtain ⟨ok, hd, h⟩ := h
  cases o with
  | atom w =>
    have ok : kind w = .atom ∨ kind w = .wild := ok
    have h : m.word d = some w := h
    rcases ok with ok | ok <;> simp [operand, hd, h, ok]
  | flat g ws =>
    obtain ⟨h1, h2⟩ := is_word h
    rcases ok with ok | ⟨ok, ok2⟩
    · simp [operand, hd, h1, ok, words_eq, h2]
    · simp only [operand, hd, h1, ok, words_eq, h2, Option.bind_some]
      simpa using ok2

theorem is_det {m : Mem} {d : Ctx} {o o' : Opd} (h : Is m d o) (h' : Is m d o') : o = o' :=
  Option.some.inj ((operand_is h).symm.trans (operand_is h'))

theorem Keep.is {m m' : Mem} (K : Keep m m') {d : Ctx} {o : Opd} (h : Is m d o) : Is m' d o := by
  obtain ⟨ok, hd, h⟩ := h
  refine ⟨ok, hd, ?_⟩
  cases o with
  | atom w => exact K.word d w h (by intro e; rcases ok with ok | ok <;> rw [e] at ok <;> cases ok)
  | flat g ws =>
    obtain ⟨h1, h2⟩ := is_word h
    have e1 : m'.word d = some g := K.word d g h1 (by intro e; rcases ok with ok | ⟨ok, _⟩ <;> rw [e] at ok <;> cases ok)
    have e2 : wordsAt m' d 1 ws.length = some ws := by
      rcases ok with ok | ⟨_, ok⟩
      · exact K.words (.inl (by rw [Mem.at, h1, Option.map_some, ok])) (Nat.le_refl 1) (by omega) h2
      · rw [wordsAt_get] at h2 ⊢
        refine ⟨rfl, fun t ht => ?_⟩
        have e := h2.2 t ht
        rw [← e]
        rw [List.getElem?_eq_getElem ht] at e
        rw [e]
        exact K.word _ _ e (by rw [ok _ (List.getElem_mem ht)]; exact fun x => by cases x)
    show wordsAt m' d 0 (ws.length + 1) = some (g :: ws)
    have e1' : m'.word (d.child 0) = some g := e1
    simp only [wordsAt, e1', Option.bind_some, e2, Option.map_some]

theorem go_not_op {m : Mem} {c d : Ctx} (h : Go m c [] d) : ∃ k, m.at c = some k ∧ k ≠ .op := by
  cases h with
  | here hf => obtain ⟨k, h1, h2⟩ := hf; exact ⟨k, h1, by rintro rfl; cases h2⟩
  | _ => exact ⟨_, by assumption, by intro e; cases e⟩

/-- Pointers of the program as it was lead to where they led. -/
theorem go_keep {m m' : Mem} (K : Keep m m') (ht : m.tidy) {c ks d} (h : Go m c ks d) : Ev (fun N => along (deref m' N) c ks) d := by
  induction h with
  | here h => exact deref_final (K.final h)
  | @iptr c k d h _ ih => exact Ev.succ (ih.of fun N => by simp [along, deref, K.at h (fun e => by cases e)])
  | rptr h h2 _ => exact Ev.succ (Ev.const fun N => by simp [along, deref, K.at h (fun e => by cases e), K.object, K.objs, h2])
  | ipgm h _ ih => exact Ev.succ (ih.of fun N => by simp [along, deref, K.at h (fun e => by cases e), K.ipgm])
  | inobj h h2 _ ih => exact Ev.succ (ih.of fun N => by simp [along, deref, K.at h (fun e => by cases e), K.inputs, h2])
  | @dinobj c r k p d h _ _ ih1 ih2 =>
    refine Ev.succ ((ih1.bind (g := fun N p => deref m' N ⟨.obj (m'.object p), k⟩) (by rw [K.object]; exact ih2)).of fun N => ?_)
    simp [along, deref, K.at h (fun e => by cases e)]
  | value h h2 _ => exact Ev.succ (Ev.const fun N => by simp [along, deref, K.at h (fun e => by cases e), h2])
  | prod h h2 _ => exact Ev.succ (Ev.const fun N => by simp [along, deref, K.at h (fun e => by cases e), K.prods, h2])
  | this h _ => exact Ev.succ (Ev.const fun N => by simp [along, deref, K.at h (fun e => by cases e), K.ipgm])
  | @codevl c k d h hg ih =>
    obtain ⟨t1, t2⟩ := ht c k h
    have h' := K.at h (fun e => by cases e)
    obtain ⟨x, hk, hne⟩ := go_not_op hg
    have hk' := K.at hk hne
    by_cases hx : ∃ j, x = .iptr j
    · obtain ⟨j, rfl⟩ := hx
      have hgj : Go m ⟨c.sp, j⟩ [] d := by
        cases hg with
        | here hf => obtain ⟨x, hx, hxf⟩ := hf; rw [hk] at hx; cases hx; simp [Kind.final] at hxf
        | iptr h1 h2 => rw [hk] at h1; cases h1; exact h2
        | _ => simp_all
      obtain ⟨y, hy, hyne⟩ := go_not_op hgj
      have hy' := K.at hy hyne
      by_cases hs : ∃ n, y = .struct n ∨ y = .raw n
      · obtain ⟨n, hn⟩ := hs
        have := go_struct hgj n (by rw [hy]; rcases hn with rfl | rfl <;> simp)
        subst this
        refine Ev.succ (Ev.const fun N => ?_)
        rcases hn with rfl | rfl <;> simp [along, deref, h', hk', hy']
      · refine Ev.succ (ih.of fun N => ?_)
        have hc := t2 j
        simp only [along, deref, h', hk', hy']
        cases y with
        | struct n => exact absurd ⟨n, .inl rfl⟩ hs
        | raw n => exact absurd ⟨n, .inr rfl⟩ hs
        | cptr n => exact absurd hy (hc n hk)
        | op => exact absurd rfl hyne
        | _ => rfl
    · refine Ev.succ (ih.of fun N => ?_)
      have t1' : ∀ n, x ≠ .struct n ∧ x ≠ .raw n ∧ x ≠ .cptr n := fun n => by
        have := t1 n; rw [hk] at this; simpa using this
      simp only [along, deref, h', hk']
      cases x with
      | struct n => exact absurd rfl (t1' n).1
      | raw n => exact absurd rfl (t1' n).2.1
      | cptr n => exact absurd rfl (t1' n).2.2
      | op => exact absurd rfl hne
      | iptr j => exact absurd ⟨j, rfl⟩ hx
      | _ => rfl
  | @cptr c n ws d h h2 hs _ ih =>
    have h2' : wordsAt m' c 2 (n - 1) = some ws := K.words (.inr h) (by omega) (by omega) h2
    exact Ev.succ (ih.of fun N => by simp [along, deref, K.at h (fun e => by cases e), chain_words hs h2'])
  | @walk c e k ks d _ _ ih1 ih2 =>
    refine ((ih1.bind (g := fun N e => along (deref m' N) (e.child k) ks) ih2).of fun N => ?_)
    simp only [along]
    cases deref m' N c <;> rfl

/-! ## Results in place -/

theorem kind_value {k : Nat} (h : k < 4096) : kind (valuePointer (BitVec.ofNat 16 k)) = .value k := by
  have hw := ptr_toNat .VALUE_PTR (BitVec.ofNat 16 k)
  have hn : Ty.num .VALUE_PTR = 0x89 := by decide
  have he : (BitVec.ofNat 16 k).toNat = k := by rw [BitVec.toNat_ofNat]; omega
  rw [hn, he] at hw
  have hd : (getDescriptor (valuePointer (BitVec.ofNat 16 k))).toNat = 0x89 := by rw [getDescriptor_toNat, valuePointer, hw]; omega
  have hi : (asIndex (valuePointer (BitVec.ofNat 16 k))).toNat = k := by rw [asIndex_toNat, valuePointer, hw]; omega
  simp [kind, kindOf, hd, hi]

/-- The value is in place of the expression at `i`. -/
def Done (s : St) (i : Nat) (o : Opd) : Prop :=
  o.ok ∧
  match o with
  | .atom w => s.m.stem i = some w
  | .flat h ws => ∃ k, k < 4096 ∧ s.m.stem i = some (valuePointer (BitVec.ofNat 16 k)) ∧ wordsAt s.m ⟨.val, k⟩ 0 (ws.length + 1) = some (h :: ws)

theorem Opd.ok.final {m : Mem} {d : Ctx} {o : Opd} (h : Is m d o) : Final m d := by
  obtain ⟨ok, hd, h⟩ := h
  cases o with
  | atom w =>
    have h : m.word d = some w := h
    refine ⟨kind w, by rw [Mem.at, h]; rfl, ?_⟩
    rcases ok with ok | ok <;> rw [ok] <;> rfl
  | flat g ws =>
    obtain ⟨h1, h2⟩ := is_word h
    refine ⟨kind g, by rw [Mem.at, h1]; rfl, ?_⟩
    rcases ok with ok | ⟨ok, _⟩ <;> rw [ok] <;> rfl

theorem derefE_pure (L : Lang) {s : St} {i : Nat} {x : Kind} {d : Ctx} (h : s.m.at ⟨.stem, i⟩ = some x) (h1 : ∀ k, x ≠ .iptr k) (h2 : ∀ k, x ≠ .codevl k)
    (h3 : x ≠ .op) (hd : Ev (fun N => deref s.m N ⟨.stem, i⟩) d) : Ev (fun N => derefE L N s i) (s, some d) := by
  obtain ⟨n, hn⟩ := hd
  refine Ev.succ ⟨n, fun N hN => ?_⟩
  have e := hn N hN
  simp only [derefE, h]
  cases x with
  | iptr k => exact absurd rfl (h1 k)
  | codevl k => exact absurd rfl (h2 k)
  | op => exact absurd rfl h3
  | _ => simp only [e, Option.map_some]

theorem derefE_iptr (L : Lang) {s : St} {i k : Nat} {r} (h : s.m.at ⟨.stem, i⟩ = some (.iptr k)) (hd : Ev (fun N => derefE L N s k) r) :
    Ev (fun N => derefE L N s i) r := Ev.succ (hd.of fun N => by simp only [derefE, h])

theorem derefE_op (L : Lang) {s : St} {i : Nat} (h : s.m.at ⟨.stem, i⟩ = some .op) : Ev (fun N => derefE L N s i) (s, some ⟨.stem, i⟩) :=
  Ev.succ (Ev.const fun N => by simp only [derefE, h])

def Kind.heavy : Kind → Bool
  | .op => true
  | .struct _ => true
  | .raw _ => true
  | .cptr _ => true
  | _ => false

theorem derefE_next (L : Lang) {s : St} {i v : Nat} {x : Kind} {r} (h : s.m.at ⟨.stem, i⟩ = some (.codevl v)) (hv : s.m.at ⟨.stem, v⟩ = some x)
    (h1 : Kind.heavy x = false) (h2 : ∀ j, x = .iptr j → ∃ y, s.m.at ⟨.stem, j⟩ = some y ∧ Kind.heavy y = false) (hd : Ev (fun N => derefE L N s v) r) :
    Ev (fun N => derefE L N s i) r := by
  refine Ev.succ (hd.of fun N => ?_)
  simp only [derefE, h, hv]
  cases x with
  | iptr j =>
    obtain ⟨y, hy, hl⟩ := h2 j rfl
    simp only [hy]
    cases y <;> first | rfl | cases hl
  | _ => first | rfl | cases h1

theorem derefE_eval (L : Lang) {s s' : St} {i v j : Nat} {x : Kind} {b : Bool} (h : s.m.at ⟨.stem, i⟩ = some (.codevl v))
    (hv : s.m.at ⟨.stem, v⟩ = some (.iptr j)) (hj : s.m.at ⟨.stem, j⟩ = some x) (hx : Kind.heavy x = true) (he : Ev (fun N => evalE L N s j) (s', b)) :
    Ev (fun N => derefE L N s i) (s', if b then some ⟨.stem, j⟩ else none) := by
  obtain ⟨n, hn⟩ := he
  refine Ev.succ ⟨n, fun N hN => ?_⟩
  have e := hn N hN
  simp only [derefE, h, hv, hj]
  cases x <;> first | (simp only [e, Option.map_some]; done) | cases hx

theorem loop_atoms (L : Lang) {s : St} : ∀ (n i : Nat), (∀ t < n, ∃ w, s.m.stem (i + t) = some w ∧ kind w = .atom) →
    ∀ N, loop (member (derefE L (N + 2)) (evalE L (N + 2))) i n s = some (s, true) := by
  intro n
  induction n with
  | zero => intro i _ N; rfl
  | succ n ih =>
    intro i h N
    obtain ⟨w, h1, h2⟩ := h 0 (by omega)
    have hw : s.m.word ⟨.stem, i⟩ = some w := h1
    have ha : s.m.at ⟨.stem, i⟩ = some .atom := by rw [Mem.at, hw, Option.map_some, h2]
    have e1 : derefE L (N + 2) s i = some (s, some ⟨.stem, i⟩) := by simp [derefE, ha, deref]
    have e2 : evalE L (N + 2) s i = some (s, true) := by simp [evalE, hw, h2]
    simp only [loop, member, e1, e2, if_true]
    exact ih (i + 1) (fun t ht => by rw [show i + 1 + t = i + (t + 1) by omega]; exact h (t + 1) (by omega)) N

theorem is_eval (L : Lang) {s : St} {i : Nat} {o : Opd} (h : Is s.m ⟨.stem, i⟩ o) : Ev (fun N => evalE L N s i) (s, true) := by
  obtain ⟨ok, hd, h⟩ := h
  cases o with
  | atom w =>
    have h : s.m.word ⟨.stem, i⟩ = some w := h
    refine Ev.succ (Ev.const fun N => ?_)
    rcases ok with ok | ok <;> simp [evalE, h, ok]
  | flat g ws =>
    obtain ⟨h1, h2⟩ := is_word h
    rcases ok with ok | ⟨ok, ok2⟩
    · exact Ev.succ (Ev.const fun N => by simp [evalE, h1, ok])
    · refine Ev.succ ⟨2, fun N hN => ?_⟩
      simp only [evalE, h1, ok]
      split
      · rfl
      · obtain ⟨N, rfl⟩ : ∃ k, N = k + 2 := ⟨N - 2, by omega⟩
        refine loop_atoms L _ _ (fun t ht => ?_) N
        rw [wordsAt_get] at h2
        have e := h2.2 t ht
        rw [List.getElem?_eq_getElem ht] at e
        refine ⟨_, ?_, ok2 _ (List.getElem_mem ht)⟩
        rw [← e]
        show s.m.stem (i + 1 + t) = s.m.stem (i + (1 + t))
        congr 1
        omega

theorem done_deref (L : Lang) {s : St} {i : Nat} {o : Opd} (h : Done s i o) :
    ∃ d, Ev (fun N => derefE L N s i) (s, some d) ∧ Is s.m d o ∧ (d = ⟨.stem, i⟩ ∨ d.sp = .val) ∧ ∃ x, s.m.at ⟨.stem, i⟩ = some x ∧ Kind.heavy x = false ∧ (∀ k, x ≠ .iptr k) := by
  obtain ⟨ok, h⟩ := h
  cases o with
  | atom w =>
    have h : s.m.stem i = some w := h
    have hi : Is s.m ⟨.stem, i⟩ (.atom w) := ⟨ok, rfl, h⟩
    have ha : s.m.at ⟨.stem, i⟩ = some (kind w) := by rw [Mem.at]; show Option.map kind (s.m.stem i) = _; rw [h]; rfl
    have hf := deref_final (Opd.ok.final hi)
    refine ⟨⟨.stem, i⟩, derefE_pure L ha ?_ ?_ ?_ hf, hi, .inl rfl, kind w, ha, ?_, ?_⟩ <;> rcases ok with ok | ok <;> rw [ok] <;>
      first | rfl | (intro k e; cases e) | (intro e; cases e)
  | flat g ws =>
    obtain ⟨k, hk, h1, h2⟩ := h
    have ha : s.m.at ⟨.stem, i⟩ = some (.value k) := by
      rw [Mem.at]; show Option.map kind (s.m.stem i) = _; rw [h1, Option.map_some, kind_value hk]
    refine ⟨⟨.val, k⟩, derefE_pure L ha (fun k e => by cases e) (fun k e => by cases e) (fun e => by cases e) ?_, ⟨ok, rfl, h2⟩, .inr rfl, _, ha, rfl, fun k e => by cases e⟩
    exact Ev.succ (Ev.const fun N => by simp [deref, ha])

theorem done_eval (L : Lang) {s : St} {i : Nat} {o : Opd} (h : Done s i o) : Ev (fun N => evalE L N s i) (s, true) := by
  have h0 := h
  obtain ⟨ok, h⟩ := h
  cases o with
  | atom w => exact is_eval L (o := .atom w) ⟨ok, rfl, h⟩
  | flat g ws =>
    obtain ⟨k, hk, h1, _⟩ := h
    refine Ev.succ (Ev.const fun N => ?_)
    have hw : s.m.word ⟨.stem, i⟩ = some (valuePointer (BitVec.ofNat 16 k)) := h1
    simp [evalE, hw, kind_value hk]

end Verif.Eval
