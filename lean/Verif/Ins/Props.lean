import Verif.Ins.Spec
import Verif.Ctx.Copy
/-!
# C161: making instances of programs
-/
namespace Verif.Ins
open Verif.Atom hiding Val
open Verif.Ctx

/-! ## Values -/

/-- Where a value is. -/
theorem den_go {m : Mem} {c : Ctx} {v : Val} (h : Den m false c v) : ∃ d, Go m c [] d ∧ Final m d ∧ Den m false d v := by
  cases h with
  | atom g h2 h3 h4 => exact ⟨_, g, go_final g, .atom (.here (go_final g)) h2 h3 h4⟩
  | raw g h2 h3 h4 h5 => exact ⟨_, g, go_final g, .raw (.here (go_final g)) h2 h3 h4 h5⟩
  | node g h2 h3 h4 h5 => exact ⟨_, g, go_final g, .node (.here (go_final g)) h2 h3 h4 h5⟩

theorem den_nth {m : Mem} {as : Val} : ∀ {c : Ctx} {i : Nat}, Den m true c as → i < as.length → Den m false (c.child i) (nth as i) := by
  induction as with
  | cons v vs _ ih =>
    intro c i h hi
    cases h with
    | cons h1 h2 =>
      cases i with
      | zero => exact h1
      | succ i =>
        have := ih h2 (i := i) (by simpa [Val.length] using hi)
        have e : (c.child 1).child i = c.child (i + 1) := by simp [Ctx.child, Nat.add_comm, Nat.add_left_comm]
        rw [e] at this
        exact this
  | _ => intro c i h hi; simp [Val.length] at hi

theorem tame_nth {as : Val} : ∀ {i : Nat}, as.tame → (nth as i).tame := by
  induction as with
  | cons v vs _ ih =>
    intro i h
    cases i with
    | zero => exact h.1
    | succ i => exact ih h.2
  | _ => intro i h; simpa [nth] using h

theorem counted_nth {as : Val} : ∀ {i : Nat}, as.counted → (nth as i).counted := by
  induction as with
  | cons v vs _ ih =>
    intro i h
    cases i with
    | zero => exact h.1
    | succ i => exact ih h.2
  | _ => intro i h; simpa [nth] using h

theorem at_word {m : Mem} {c : Ctx} {k : Kind} (h : m.at c = some k) : ∃ w, m.word c = some w ∧ kind w = k := by
  simpa [Mem.at, Option.map_eq_some_iff] using h

theorem kindOf_iptr {d k a n j : Nat} (h : kindOf d k a n = .iptr j) : k = j := by
  unfold kindOf at h
  repeat' (replace h := ite_split h; rcases h with ⟨_, h⟩ | ⟨_, h⟩)
  all_goals first
    | (exfalso; exact Kind.noConfusion h)
    | (cases h; rfl)

theorem kind_iptr {w : Word} {k : Nat} (h : kind w = .iptr k) : (asIndex w).toNat = k := kindOf_iptr h

/-! ## The tests -/

/-- What is needed of the template and the arguments for skeletons to be matched as C147 says. -/
structure Neat (t : Template) (as : Val) : Prop where
  skel : ∀ i, i < t.n → (t.skel i).tame ∧ (t.skel i).counted
  arg : as.tame ∧ as.counted

theorem fits_ev {m : Mem} (ht : m.tidy) {P : Nat} {t : Template} (hw : Written m P t) {a : Ctx} {as : Val} (ha : Den m true (a.child 1) as) (hl : as.length = t.n)
    (hn : Neat t as) : ∀ (k i : Nat), i + k = t.n →
    ∃ b, Ev (fun N => fits m N a ⟨.obj P, t.s⟩ (i + 1) k) b ∧ (b = true ↔ ∀ j, i ≤ j → j < t.n → inst (t.skel j) (nth as j) = true)
  | 0, i, e => ⟨true, Ev.const fun _ => rfl, by simp; intro j h1 h2; omega⟩
  | k + 1, i, e => by
    obtain ⟨b, hb, hb'⟩ := fits_ev ht hw ha hl hn k (i + 1) (by omega)
    have hi : i < t.n := by omega
    obtain ⟨p, gp, dp⟩ := hw.pats i hi
    obtain ⟨s, gs, fs, ds⟩ := den_go dp
    have da := den_nth ha (i := i) (by omega)
    obtain ⟨x, gx, fx, dx⟩ := den_go da
    have e1 : (a.child 1).child i = a.child (i + 1) := by simp [Ctx.child, Nat.add_comm, Nat.add_left_comm]
    have e2 : (⟨.obj P, t.s + 1 + i⟩ : Ctx) = Ctx.child ⟨.obj P, t.s⟩ (i + 1) := by simp [Ctx.child]; omega
    rw [e1] at gx
    rw [e2] at gp
    have hm := (mat_main ht (t.skel i)).1 s x (nth as i) fs fx ds dx (hn.skel i hi).1 (tame_nth hn.arg.1) (hn.skel i hi).2 (counted_nth hn.arg.2)
    refine ⟨inst (t.skel i) (nth as i) && b, every_cons ((go_deref' ht gx).bind ((go_deref' ht gp).bind ((go_deref' ht gs).bind hm))) hb, ?_⟩
    rw [Bool.and_eq_true, hb']
    constructor
    · rintro ⟨h1, h2⟩ j hj hj'
      by_cases e : j = i
      · subst e; exact h1
      · exact h2 j (by omega) hj'
    · exact fun h => ⟨h i (Nat.le_refl _) hi, fun j h1 h2 => h j (by omega) h2⟩

/-! ## The instance -/

theorem kind_struct_ {t : Ty} {op : BitVec 16} (h : t.num = 0xC9 ∨ t.num = 0xCB ∨ t.num = 0xCC) : kind (struct_ t op 7) = .struct 7 ∧
    (struct_ t op 7).toNat / 2 ^ 24 = t.num ∧ opcode (struct_ t op 7) = op.toNat % 4096 := by
  have hw := struct_toNat t op 7
  have h7 : (7 : BitVec 8).toNat = 7 := rfl
  rw [h7] at hw
  have hd := getDescriptor_toNat (struct_ t op 7)
  have ho := op.isLt
  refine ⟨?_, by omega, by unfold opcode; omega⟩
  have hd' : (getDescriptor (struct_ t op 7)).toNat = t.num := by omega
  have hc : (getAtomCount (struct_ t op 7)).toNat = 7 := by
    have hb : getDescriptor (struct_ t op 7) = BitVec.ofNat 8 t.num := BitVec.eq_of_toNat_eq (by rw [hd', BitVec.toNat_ofNat]; omega)
    have hand : ((struct_ t op 7) &&& 0x000000FF).toNat = 7 := by
      rw [BitVec.toNat_and]
      have : (0x000000FF : Word).toNat = 2 ^ 8 - 1 := rfl
      rw [this, Nat.and_two_pow_sub_one_eq_mod]
      omega
    unfold getAtomCount
    rw [hb]
    rcases h with h | h | h <;> rw [h] <;> simp only <;> rw [if_pos (by decide), BitVec.toNat_setWidth, hand]
  unfold kind
  rw [hd', hc]
  rcases h with h | h | h <;> rw [h] <;> rfl

theorem asOpcode_toNat (w : Word) : (asOpcode w).toNat = opcode w := by
  have : (0x00000FFF : Word).toNat = 2 ^ 12 - 1 := rfl
  unfold asOpcode opcode
  rw [BitVec.toNat_setWidth, BitVec.toNat_and, BitVec.toNat_ushiftRight, this, Nat.and_two_pow_sub_one_eq_mod, Nat.shiftRight_eq_div_pow]
  omega

theorem head_spec {m : Mem} {O : Ops} {P : Nat} {t : Template} (hw : Written m P t) {hp : Word} (ho : asOpcode hp = O.pgm ∨ asOpcode hp = O.anti) :
    ∃ h, head m O P (asOpcode hp) = some h ∧ kind h = .struct 7 ∧ h.toNat / 2 ^ 24 = descriptor O t hp ∧ opcode h = O.ipgm.toNat % 4096 := by
  by_cases e : asOpcode hp = O.anti
  · obtain ⟨h1, h2, h3⟩ := kind_struct_ (t := .INSTANTIATED_ANTI_PROGRAM) (op := O.ipgm) (by decide)
    have e' : opcode hp = O.anti.toNat := by rw [← asOpcode_toNat, e]
    exact ⟨_, by rw [head, if_pos e]; rfl, h1, by rw [descriptor, if_pos e', h2]; rfl, h3⟩
  · have e' : ¬ opcode hp = O.anti.toNat := fun h => e (BitVec.eq_of_toNat_eq (by rw [asOpcode_toNat, h]))
    obtain ⟨i, i1, i2⟩ := at_word hw.ins
    obtain ⟨g, g1, g2⟩ := at_word hw.inputs
    have i1' : (m.objs P).code 2 = some i := i1
    have g1' : (m.objs P).code t.u = some g := g1
    have hz : getAtomCount g = 0 ↔ t.inputs = 0 := by
      rw [← kind_struct_count (.inl g2), ← BitVec.toNat_inj]; rfl
    by_cases z : t.inputs = 0
    · obtain ⟨h1, h2, h3⟩ := kind_struct_ (t := .INSTANTIATED_INPUT_LESS_PROGRAM) (op := O.ipgm) (by decide)
      refine ⟨_, by rw [head, if_neg e, i1', Option.bind_some, kind_iptr i2, g1', Option.map_some, if_pos (hz.mpr z)]; rfl, h1, ?_, h3⟩
      rw [descriptor, if_neg e', if_pos z, h2]; rfl
    · obtain ⟨h1, h2, h3⟩ := kind_struct_ (t := .INSTANTIATED_PROGRAM) (op := O.ipgm) (by decide)
      refine ⟨_, by rw [head, if_neg e, i1', Option.bind_some, kind_iptr i2, g1', Option.map_some, if_neg (fun k => z (hz.mp k))]; rfl, h1, ?_, h3⟩
      rw [descriptor, if_neg e', if_neg z, h2]; rfl

/-- Writing cells that are empty. -/
theorem finish_le {d : Dest} {e : Nat} {a b c f g h : Word} (h37 : ∀ j, 3 ≤ j → j < 8 → d.code j = none) (hc : Clear d e) : Le d (finish d e a b c f g h) := by
  refine ⟨fun {i x} hx => ?_, fun hx => hx⟩
  have h1 : ¬ (3 ≤ i ∧ i < 8) := fun ⟨a, b⟩ => by rw [h37 i a b] at hx; cases hx
  have h2 : i < e := Nat.lt_of_not_le fun k => by rw [hc i k] at hx; cases hx
  simp only [finish, Obj.put]
  rw [if_neg (by omega), if_neg (by omega), if_neg (by omega), if_neg (by omega), if_neg (by omega), if_neg (by omega), if_neg (by omega), if_neg (by omega)]
  exact hx

theorem finish_code {d : Dest} {e : Nat} {a b c f g h : Word} (he : 8 ≤ e) :
    (finish d e a b c f g h).code 3 = some a ∧ (finish d e a b c f g h).code 4 = some (iPointer e) ∧ (finish d e a b c f g h).code e = some b ∧
    (finish d e a b c f g h).code (e + 1) = some c ∧ (finish d e a b c f g h).code (e + 2) = some f ∧ (finish d e a b c f g h).code 5 = some g ∧
    (finish d e a b c f g h).code 6 = some h ∧ (finish d e a b c f g h).code 7 = some 0x1FC00000#32 := by
  have hf : float 0x3F800000#32 = 0x1FC00000#32 := by decide
  simp only [finish, Obj.put, hf]
  refine ⟨?_, ?_, ?_, ?_, ?_, ?_, ?_, ?_⟩ <;> (repeat first | rw [if_pos rfl] | rw [if_pos trivial] | rw [if_neg (by omega)])

theorem make_spec {m : Mem} (ht : m.tidy) {O : Ops} {q : Asked} {t : Template} (hw : Written m q.P t) (ho : asOpcode q.hp = O.pgm ∨ asOpcode q.hp = O.anti)
    {n : Nat} (hP : Den m false ⟨.obj q.P, 0⟩ (.node (some q.P) q.hp q.ks)) (fP : Final m ⟨.obj q.P, 0⟩) {a r x s f : Ctx} (ha : m.word a = some q.ha) (hk : kind q.ha = .struct n) (hl : q.as.length = n)
    (hf : Fair m true (a.child 1) q.as) (hsz : 12 + n + q.as.weight ≤ 4096) (hlk : 1 + q.as.links ≤ 4096)
    (hr : m.word r = some q.run.2) (hr' : simple q.run.2) {t1 t2 : Word} (hx : m.word x = some q.tsc.1) (hx' : kind q.tsc.1 = .raw 2) (hx1 : wordsAt m x 1 2 = some q.tsc.2)
    (hx2 : q.tsc.2 = [t1, t2]) (hs : m.word s = some q.res.2) (hs' : simple q.res.2) (hn : m.word f = some q.nfr.2) (hn' : simple q.nfr.2) :
    ∃ k, ∀ N ≥ k, ∃ d, make m O N q.P (asOpcode q.hp) a r x s f = some d ∧ Right m O t q d := by
  obtain ⟨h, h1, h2, h3, h4⟩ := head_spec hw ho
  obtain ⟨k, hk'⟩ := copy_struct ha hk hl (fair_goal ht hf)
  refine ⟨k, fun N hN => ?_⟩
  have hc : Clear (start h q.P) 8 := fun j hj => by
    simp only [start, Obj.put]
    rw [if_neg (by omega), if_neg (by omega), if_neg (by omega)]
  obtain ⟨d, d1, wr, d2, d3⟩ := hk' N hN (start h q.P) 8 hc (by omega) (by simpa [start, Obj.put] using hlk)
  have w1 : m.word (x.child 1) = some t1 ∧ m.word (x.child 2) = some t2 := by
    rw [hx2] at hx1
    simp only [wordsAt, Option.bind_eq_some_iff, Option.map_eq_some_iff] at hx1
    obtain ⟨u, u1, l, ⟨v, v1, l', v2, v3⟩, e⟩ := hx1
    cases v2; subst v3
    cases e
    exact ⟨u1, v1⟩
  have le := finish_le (a := q.run.2) (b := q.tsc.1) (c := t1) (f := t2) (g := q.res.2) (h := q.nfr.2) (e := 8 + (1 + n + q.as.weight))
    (fun j a b => by
      rw [wr.keep j b id]
      simp only [start, Obj.put]
      rw [if_neg (by omega), if_neg (by omega), if_neg (by omega)]) wr.clear
  obtain ⟨c3, c4, ce, ce1, ce2, c5, c6, c7⟩ := finish_code (d := d) (a := q.run.2) (b := q.tsc.1) (c := t1) (f := t2) (g := q.res.2) (h := q.nfr.2) (e := 8 + (1 + n + q.as.weight)) (by omega)
  refine ⟨finish d (8 + (1 + n + q.as.weight)) q.run.2 q.tsc.1 t1 t2 q.res.2 q.nfr.2, ?_, h, h3, h4, fun o hfr => ?_⟩
  · simp only [make, h1, Option.bind_some, d1, hr, hx, w1.1, w1.2, hs, hn, Option.map_some]
  · have c0 : (finish d (8 + (1 + n + q.as.weight)) q.run.2 q.tsc.1 t1 t2 q.res.2 q.nfr.2).code 0 = some h := le.code (wr.le.code (by simp [start, Obj.put]))
    have c1 : (finish d (8 + (1 + n + q.as.weight)) q.run.2 q.tsc.1 t1 t2 q.res.2 q.nfr.2).code 1 = some (rPointer 0) := le.code (wr.le.code (by simp [start, Obj.put]))
    have c2 : (finish d (8 + (1 + n + q.as.weight)) q.run.2 q.tsc.1 t1 t2 q.res.2 q.nfr.2).code 2 = some (iPointer 8) := le.code (wr.le.code (by simp [start, Obj.put]))
    have at' : At m (finish d (8 + (1 + n + q.as.weight)) q.run.2 q.tsc.1 t1 t2 q.res.2 q.nfr.2) true 1 q.members := by
      refine .cons (.obj c1 (kind_rPointer (by decide)) (le.refs (wr.le.refs (by simp [start, Obj.put]))) hP fP)
        (.cons (.node c2 (kind_iPointer (by decide)) (by decide) (le.code d2) hk hl (d3.mono le)) (.cons (.atom c3 hr') (.cons
          (.raw c4 (kind_iPointer (by omega)) (by omega) ce hx' (by rw [hx2]; rfl) fun i hi => ?_) (.cons (.atom c5 hs') (.cons (.atom c6 hn') (.cons (.atom c7 (by decide)) .nil))))))
      rw [hx2]
      match i, hi with
      | 0, _ => exact ce1
      | 1, _ => exact ce2
    obtain ⟨ls, hls, hal⟩ := at_den hfr at' (by omega)
    exact ⟨ls, .node (d := ⟨.obj o, 0⟩) (n := 7) (.here ⟨_, at_self c0, by rw [h2]; rfl⟩) (by rw [word_self, c0]) h2 hls (by rw [← alike_length hal]; rfl), hal⟩

/-! ## The operator -/

theorem go_det {m : Mem} (ht : m.tidy) {c d e : Ctx} (h : Go m c [] d) (k : Go m c [] e) : d = e := by
  obtain ⟨a, ha⟩ := go_deref' ht h
  obtain ⟨b, hb⟩ := go_deref' ht k
  have h1 := ha (max a b) (by omega)
  have h2 := hb (max a b) (by omega)
  rw [h1] at h2
  exact Option.some.inj h2

theorem den_atom {m : Mem} {c d : Ctx} {w : Word} (h : Den m false c (.atom d w)) : Go m c [] d ∧ m.word d = some w ∧ simple w := by
  cases h with
  | atom g h2 h3 _ => exact ⟨g, h2, h3⟩

theorem den_raw {m : Mem} {c : Ctx} {h : Word} {ws : List Word} (k : Den m false c (.raw h ws)) :
    ∃ d n, Go m c [] d ∧ m.word d = some h ∧ kind h = .raw n ∧ wordsAt m d 1 n = some ws := by
  cases k with
  | raw g h2 h3 _ h5 => exact ⟨_, _, g, h2, h3, h5⟩

theorem den_node {m : Mem} {c : Ctx} {i : Option Nat} {h : Word} {ks : Val} (k : Den m false c (.node i h ks)) :
    ∃ d n, Go m c [] d ∧ i = ident d ∧ m.word d = some h ∧ kind h = .struct n ∧ Den m true (d.child 1) ks ∧ ks.length = n := by
  cases k with
  | node g h2 h3 h4 h5 => exact ⟨_, _, g, rfl, h2, h3, h4, h5⟩

theorem ident_some {d : Ctx} {P : Nat} (h : some P = ident d) : d = ⟨.obj P, 0⟩ := by
  obtain ⟨sp, i⟩ := d
  cases sp with
  | obj o =>
    simp only [ident] at h
    split_ifs at h with hi
    cases h
    rw [hi]
  | _ => cases h

/-- What is needed of the arguments to be copied as C148 says. -/
structure Copied (m : Mem) (c : Ctx) (as : Val) : Prop where
  fair : ∃ a, Go m (c.child 2) [] a ∧ Fair m true (a.child 1) as
  size : 12 + as.length + as.weight ≤ 4096
  links : 1 + as.links ≤ 4096

/-- C161 but for variables that occur twice. -/
theorem C161_ins_partial {m : Mem} (ht : m.tidy) {O : Ops} {c : Ctx} {q : Asked} {t : Template} (hq : Operands m c q) (hw : Written m q.P t)
    (hn : Neat t q.as) (hc : Copied m c q.as) : ∃ k, ∀ N ≥ k, ∃ r, ins m O N c = some r ∧
      (r.isSome = true ↔ (opcode q.hp = O.pgm.toNat ∨ opcode q.hp = O.anti.toNat) ∧ q.as.length = t.n ∧ ∀ i, i < t.n → inst (t.skel i) (nth q.as i) = true) ∧
      ∀ d, r = some d → Right m O t q d := by
  obtain ⟨p, np, gp, ip, wp, kp, dp, lp⟩ := den_node hq.pgm
  obtain rfl := ident_some ip
  obtain ⟨a, n, ga, _, wa, ka, da, la⟩ := den_node hq.args
  obtain ⟨a', ga', fa⟩ := hc.fair
  obtain rfl := go_det ht ga ga'
  obtain ⟨gr, wr, sr⟩ := den_atom hq.run
  obtain ⟨x, n2, gx, wx, kx, xx⟩ := den_raw hq.tsc
  obtain ⟨gs, ws, ss⟩ := den_atom hq.res
  obtain ⟨gf, wf, sf⟩ := den_atom hq.nfr
  have e2 : n2 = 2 := by rw [← wordsAt_length xx]; exact hq.time
  subst e2
  obtain ⟨t1, t2, tt⟩ : ∃ t1 t2, q.tsc.2 = [t1, t2] := by
    have := hq.time
    match h : q.tsc.2, this with
    | [t1, t2], _ => exact ⟨t1, t2, rfl⟩
  have wp' : (m.objs q.P).code 0 = some q.hp := wp
  have ops : ∀ {w : BitVec 16}, asOpcode q.hp = w ↔ opcode q.hp = w.toNat := by
    intro w; rw [← BitVec.toNat_inj, asOpcode_toNat]
  have dset : getDescriptor q.ha = 0xC1 := BitVec.eq_of_toNat_eq (by rw [getDescriptor_toNat]; exact hq.set)
  obtain ⟨ti, ti1, ti2⟩ := at_word hw.tpl
  obtain ⟨si, si1, si2⟩ := at_word hw.count
  have ti1' : (m.objs q.P).code 1 = some ti := ti1
  have si1' : (m.objs q.P).code t.s = some si := si1
  have cs := kind_struct_count (.inl si2)
  have ca := kind_struct_count (.inl ka)
  -- whatever the tests say, the operands are followed
  suffices h : ∃ k, ∀ N ≥ k, ∃ r, apply m O N q.P a q.run.1 x q.res.1 q.nfr.1 = some r ∧
      (r.isSome = true ↔ (opcode q.hp = O.pgm.toNat ∨ opcode q.hp = O.anti.toNat) ∧ q.as.length = t.n ∧ ∀ i, i < t.n → inst (t.skel i) (nth q.as i) = true) ∧
      ∀ d, r = some d → Right m O t q d by
    obtain ⟨k, hk⟩ := h
    obtain ⟨k1, h1⟩ := go_deref' ht gp
    obtain ⟨k2, h2⟩ := go_deref' ht ga
    obtain ⟨k3, h3⟩ := go_deref' ht gr
    obtain ⟨k4, h4⟩ := go_deref' ht gx
    obtain ⟨k5, h5⟩ := go_deref' ht gs
    obtain ⟨k6, h6⟩ := go_deref' ht gf
    refine ⟨k + k1 + k2 + k3 + k4 + k5 + k6, fun N hN => ?_⟩
    obtain ⟨r, hr, hr'⟩ := hk N (by omega)
    refine ⟨r, ?_, hr'⟩
    have h1 := h1 N (by omega)
    have h2 := h2 N (by omega)
    have h3 := h3 N (by omega)
    have h4 := h4 N (by omega)
    have h5 := h5 N (by omega)
    have h6 := h6 N (by omega)
    simp only at h1 h2 h3 h4 h5 h6
    simp only [ins, h1, h2, h3, h4, h5, h6, Option.bind_some]
    exact hr
  by_cases ho : asOpcode q.hp = O.pgm ∨ asOpcode q.hp = O.anti
  · have ho' : opcode q.hp = O.pgm.toNat ∨ opcode q.hp = O.anti.toNat := ho.imp ops.mp ops.mp
    have hno : ¬ (asOpcode q.hp ≠ O.pgm ∧ asOpcode q.hp ≠ O.anti) := fun h => ho.elim h.1 h.2
    by_cases hl : q.as.length = t.n
    · have hcount : ¬ getAtomCount si ≠ getAtomCount q.ha := fun h => h (BitVec.eq_of_toNat_eq (by rw [cs, ca, ← la, hl]))
      obtain ⟨b, ⟨k, hk⟩, hb⟩ := fits_ev ht hw da hl hn t.n 0 (by omega)
      have fP : Final m ⟨.obj q.P, 0⟩ := go_final gp
      obtain ⟨k', hk'⟩ := make_spec ht hw ho (.node (d := ⟨.obj q.P, 0⟩) (.here fP) wp kp dp lp) fP wa ka la fa
        (by have := hc.size; omega) hc.links wr sr wx kx xx tt ws ss wf sf
      refine ⟨k + k', fun N hN => ?_⟩
      have hf := hk N (by omega)
      simp only [Nat.zero_add] at hf
      have hcn : (getAtomCount q.ha).toNat = t.n := by rw [ca, ← la, hl]
      have red : apply m O N q.P a q.run.1 x q.res.1 q.nfr.1 = if b then (make m O N q.P (asOpcode q.hp) a q.run.1 x q.res.1 q.nfr.1).map some else some none := by
        simp only [apply, wp', Option.bind_some, if_neg hno, wa, dset, ne_eq, not_true_eq_false, if_false, ti1', kind_iptr ti2, si1', hcn, hf]
        rw [if_neg hcount]
      cases b with
      | false =>
        refine ⟨none, red, ⟨(fun h => by cases h), fun h => ?_⟩, fun d h => by cases h⟩
        exact absurd (hb.mpr fun j _ hj => h.2.2 j hj) (by simp)
      | true =>
        obtain ⟨d, hd, hR⟩ := hk' N (by omega)
        refine ⟨some d, by rw [red, hd]; rfl, ⟨fun _ => ⟨ho', hl, fun j hj => hb.mp rfl j (Nat.zero_le _) hj⟩, fun _ => rfl⟩, fun d' h => ?_⟩
        cases h
        exact hR
    · have hcount : getAtomCount si ≠ getAtomCount q.ha := fun h => hl (by rw [la, ← ca, ← cs, h])
      refine ⟨0, fun N _ => ⟨none, ?_, ⟨(fun h => by cases h), fun h => absurd h.2.1 hl⟩, fun d h => by cases h⟩⟩
      simp only [apply, wp', Option.bind_some, if_neg hno, wa, dset, ne_eq, not_true_eq_false, if_false, ti1', kind_iptr ti2, si1']
      rw [if_pos hcount]
  · have hno : asOpcode q.hp ≠ O.pgm ∧ asOpcode q.hp ≠ O.anti := ⟨fun h => ho (.inl h), fun h => ho (.inr h)⟩
    refine ⟨0, fun N _ => ⟨none, ?_, ⟨(fun h => by cases h), fun h => absurd (h.1.imp ops.mpr ops.mpr) ho⟩, fun d h => by cases h⟩⟩
    simp only [apply, wp', Option.bind_some]
    rw [if_pos hno]

/-- C161 for templates whose variables occur once. -/
theorem C161_linear_partial {m : Mem} (ht : m.tidy) {O : Ops} {c : Ctx} {q : Asked} {t : Template} (hq : Operands m c q) (hw : Written m q.P t)
    (hn : Neat t q.as) (hc : Copied m c q.as) (hl : ∀ i, i < t.n → linear (t.skel i) (nth q.as i)) : ∃ k, ∀ N ≥ k, ∃ r, ins m O N c = some r ∧
      (r.isSome = true ↔ (opcode q.hp = O.pgm.toNat ∨ opcode q.hp = O.anti.toNat) ∧ Fit t q.as) ∧ ∀ d, r = some d → Right m O t q d := by
  obtain ⟨k, hk⟩ := C161_ins_partial (O := O) ht hq hw hn hc
  refine ⟨k, fun N hN => ?_⟩
  obtain ⟨r, h1, h2, h3⟩ := hk N hN
  refine ⟨r, h1, h2.trans ?_, h3⟩
  refine and_congr_right fun _ => and_congr_right fun _ => forall_congr' fun i => ⟨fun h hi => ⟨h hi, linear_consistent (hl i hi)⟩, fun h hi => (h hi).1⟩

/-! ## Samples -/

def ops : Ops := ⟨1, 2, 3⟩

/-- (ins the_pgm |[(pair 1 2)] 1 77us 5 0): the program, object 6, is (pgm |[(ptn (pair x: y) |[])] |[]), where `y` is `X`. -/
def mem (X : Word) : Mem :=
  { objs := fun o =>
      if o = 6 then ⟨fun i => [0xC3000102#32, 0x84000003#32, 0x84000005#32, 0xC1000001#32, 0x84000006#32, 0xC1000000#32, 0xC3000202#32, 0x84000009#32, 0x84000005#32,
        0xC3000302#32, 0x82000000#32, X][i]?, []⟩
      else if o = 4 then ⟨fun _ => none, [6]⟩ else ⟨fun _ => none, []⟩
    stem := fun i => [0xC5000406#32, 0x85000000#32, 0x84000007#32, 1#32, 0x84000009#32, 5#32, 0#32, 0xC1000001#32, 0x8400000C#32, 0xC7000000#32, 6#32, 77#32,
      0xC3000302#32, 1#32, 2#32][i]?
    values := fun _ => none, pgm := 4, ipgm := 3, inputs := [], prods := [] }

/-- `x:` again, or another variable. -/
def Choice (X : Word) : Prop := X = 0x8E00000A#32 ∨ X = 0x82000000#32

def empty : Val := .node none 0xC1000000#32 .nil
def skel (e : Ctx) : Val := .node none 0xC3000302#32 (.cons (.atom ⟨.obj 6, 10⟩ 0x82000000#32) (.cons (.atom e 0x82000000#32) .nil))
def ks (e : Ctx) : Val := .cons (.node none 0xC1000001#32 (.cons (.node none 0xC3000202#32 (.cons (skel e) (.cons empty .nil))) .nil)) (.cons empty .nil)
def couple : Val := .node none 0xC3000302#32 (.cons (.atom ⟨.stem, 13⟩ 1#32) (.cons (.atom ⟨.stem, 14⟩ 2#32) .nil))

def asked (e : Ctx) : Asked :=
  ⟨6, 0xC3000102#32, ks e, 0xC1000001#32, .cons couple .nil, (⟨.stem, 3⟩, 1#32), (0xC7000000#32, [6#32, 77#32]), (⟨.stem, 5⟩, 5#32), (⟨.stem, 6⟩, 0#32)⟩

def tpl (e : Ctx) : Template := ⟨3, 1, 5, 0, fun _ => skel e⟩

theorem here {X : Word} {c : Ctx} {k : Kind} (h : (mem X).at c = some k) (hk : k.final = true) : Go (mem X) c [] c := .here ⟨k, h, hk⟩

theorem empty_den {X : Word} (hX : Choice X) {c : Ctx} (h : (mem X).at c = some (.iptr 5)) (hc : c.sp = .obj 6) : Den (mem X) false c empty := by
  obtain ⟨sp, i⟩ := c
  cases hc
  exact .node (d := ⟨.obj 6, 5⟩) (n := 0) (.iptr (k := 5) h (here (k := .struct 0) (by show (mem X).at ⟨.obj 6, 5⟩ = _; rcases hX with rfl | rfl <;> decide) rfl)) rfl (by decide) .nil rfl

theorem skel_den {X : Word} (hX : Choice X) {e : Ctx} (he : Den (mem X) false ⟨.obj 6, 11⟩ (.atom e 0x82000000#32)) : Den (mem X) false ⟨.obj 6, 7⟩ (skel e) :=
  .node (d := ⟨.obj 6, 9⟩) (n := 2) (.iptr (k := 9) (by rcases hX with rfl | rfl <;> decide) (here (k := .struct 2) (by rcases hX with rfl | rfl <;> decide) rfl)) rfl (by decide)
    (.cons (.atom (here (k := .wild) (by rcases hX with rfl | rfl <;> decide) rfl) rfl (by decide) rfl) (.cons he .nil)) rfl

theorem ptn_go {X : Word} (hX : Choice X) : Go (mem X) ⟨.obj 6, 4⟩ [] ⟨.obj 6, 6⟩ :=
  .iptr (k := 6) (by rcases hX with rfl | rfl <;> decide) (here (k := .struct 2) (by rcases hX with rfl | rfl <;> decide) rfl)

theorem ks_den {X : Word} (hX : Choice X) {e : Ctx} (he : Den (mem X) false ⟨.obj 6, 11⟩ (.atom e 0x82000000#32)) : Den (mem X) true ⟨.obj 6, 1⟩ (ks e) := by
  refine .cons (.node (d := ⟨.obj 6, 3⟩) (n := 1) (.iptr (k := 3) ?_ (here (k := .struct 1) ?_ rfl)) rfl (by decide)
    (.cons (.node (d := ⟨.obj 6, 6⟩) (n := 2) (ptn_go hX) rfl (by decide) (.cons (skel_den hX he) (.cons (empty_den hX ?_ rfl) .nil)) rfl) .nil) rfl) (.cons (empty_den hX ?_ rfl) .nil)
  all_goals rcases hX with rfl | rfl <;> decide

theorem couple_fair {X : Word} (hX : Choice X) : Fair (mem X) true ⟨.stem, 8⟩ (.cons couple .nil) := by
  have h1 : (mem X).at ⟨.stem, 8⟩ = some (.iptr 12) := by rcases hX with rfl | rfl <;> decide
  have h2 : (mem X).at ⟨.stem, 13⟩ = some .atom := by rcases hX with rfl | rfl <;> decide
  have h3 : (mem X).at ⟨.stem, 14⟩ = some .atom := by rcases hX with rfl | rfl <;> decide
  have w : (mem X).word ⟨.stem, 12⟩ = some 0xC3000302#32 := rfl
  refine .cons (.node (d := ⟨.stem, 12⟩) (n := 2) (.iptr (k := 12) h1 (here (k := .struct 2) ?_ rfl)) ?_ rfl rfl (by decide) (.cons ?_ (.cons ?_ .nil)) rfl) .nil
  · rcases hX with rfl | rfl <;> decide
  · simp [via, h1, w, Ctx.head]
  · exact .atom (d := ⟨.stem, 13⟩) (here h2 rfl) (by simp [via, h2, Ctx.head, Ctx.child]) rfl (by decide) rfl
  · exact .atom (d := ⟨.stem, 14⟩) (here h3 rfl) (by simp [via, h3, Ctx.head, Ctx.child]) rfl (by decide) rfl

theorem set_go {X : Word} (hX : Choice X) : Go (mem X) ⟨.stem, 2⟩ [] ⟨.stem, 7⟩ :=
  .iptr (k := 7) (by rcases hX with rfl | rfl <;> decide) (here (k := .struct 1) (by rcases hX with rfl | rfl <;> decide) rfl)

theorem operands {X : Word} (hX : Choice X) {e : Ctx} (he : Den (mem X) false ⟨.obj 6, 11⟩ (.atom e 0x82000000#32)) : Operands (mem X) ⟨.stem, 0⟩ (asked e) where
  pgm := .node (d := ⟨.obj 6, 0⟩) (n := 2) (.rptr (k := 0) (o := 6) (by rcases hX with rfl | rfl <;> decide) rfl ⟨.struct 2, by rcases hX with rfl | rfl <;> decide, rfl⟩) rfl (by simp only [asked]; decide)
    (ks_den hX he) rfl
  args := .node (d := ⟨.stem, 7⟩) (n := 1) (set_go hX) rfl (by simp only [asked]; decide) (couple_fair hX).den rfl
  set := by simp only [asked]; decide
  run := .atom (here (k := .atom) (by rcases hX with rfl | rfl <;> decide) rfl) rfl (by simp only [asked]; decide) rfl
  tsc := .raw (d := ⟨.stem, 9⟩) (n := 2) (.iptr (k := 9) (by rcases hX with rfl | rfl <;> decide) (here (k := .raw 2) (by rcases hX with rfl | rfl <;> decide) rfl)) rfl (by simp only [asked]; decide) rfl rfl
  time := rfl
  res := .atom (here (k := .atom) (by rcases hX with rfl | rfl <;> decide) rfl) rfl (by simp only [asked]; decide) rfl
  nfr := .atom (here (k := .atom) (by rcases hX with rfl | rfl <;> decide) rfl) rfl (by simp only [asked]; decide) rfl

theorem written {X : Word} (hX : Choice X) {e : Ctx} (he : Den (mem X) false ⟨.obj 6, 11⟩ (.atom e 0x82000000#32)) : Written (mem X) 6 (tpl e) where
  tpl := by rcases hX with rfl | rfl <;> simp only [tpl] <;> decide
  count := by rcases hX with rfl | rfl <;> simp only [tpl] <;> decide
  pats := fun i hi => by
    obtain rfl : i = 0 := Nat.lt_one_iff.mp hi
    exact ⟨⟨.obj 6, 6⟩, ptn_go hX, skel_den hX he⟩
  ins := by rcases hX with rfl | rfl <;> simp only [tpl] <;> decide
  inputs := by rcases hX with rfl | rfl <;> simp only [tpl] <;> decide

theorem twice : Den (mem 0x8E00000A#32) false ⟨.obj 6, 11⟩ (.atom ⟨.obj 6, 10⟩ 0x82000000#32) :=
  .atom (.codevl (k := 10) (by decide) (here (k := .wild) (by decide) rfl)) rfl (by decide) rfl

theorem once : Den (mem 0x82000000#32) false ⟨.obj 6, 11⟩ (.atom ⟨.obj 6, 11⟩ 0x82000000#32) :=
  .atom (here (k := .wild) (by decide) rfl) rfl (by decide) rfl

theorem twice_ins (N : Nat) : ∃ d, ins (mem 0x8E00000A#32) ops (N + 5) ⟨.stem, 0⟩ = some (some d) := ⟨_, rfl⟩

/-- C161 does not hold: (pair x: x) is taken to fit (pair 1 2). -/
theorem C161_ins_violated : ¬ C161_full ∧ ∃ m O c q t, O.pgm ≠ O.anti ∧ Operands m c q ∧ Written m q.P t ∧ ¬ Fit t q.as ∧ ∀ N, ∃ d, ins m O (N + 5) c = some (some d) := by
  have hX : Choice 0x8E00000A#32 := .inl rfl
  have nf : ¬ Fit (tpl ⟨.obj 6, 10⟩) (asked ⟨.obj 6, 10⟩).as := fun h => by
    have := (h.2 0 (by decide)).2 (⟨.obj 6, 10⟩, .atom ⟨.stem, 13⟩ 1#32) (by
        show _ ∈ [((⟨.obj 6, 10⟩ : Ctx), Val.atom ⟨.stem, 13⟩ 1#32), (⟨.obj 6, 10⟩, .atom ⟨.stem, 14⟩ 2#32)]
        exact List.mem_cons_self ..) (⟨.obj 6, 10⟩, .atom ⟨.stem, 14⟩ 2#32) (by
        show _ ∈ [((⟨.obj 6, 10⟩ : Ctx), Val.atom ⟨.stem, 13⟩ 1#32), (⟨.obj 6, 10⟩, .atom ⟨.stem, 14⟩ 2#32)]
        exact List.mem_cons_of_mem _ (List.mem_cons_self ..)) rfl
    revert this
    decide
  refine ⟨fun h => ?_, mem 0x8E00000A#32, ops, ⟨.stem, 0⟩, asked ⟨.obj 6, 10⟩, tpl ⟨.obj 6, 10⟩, by decide, operands hX twice, written hX twice, nf, twice_ins⟩
  obtain ⟨k, hk⟩ := h (mem 0x8E00000A#32) ops ⟨.stem, 0⟩ (asked ⟨.obj 6, 10⟩) (tpl ⟨.obj 6, 10⟩) (by decide) (operands hX twice) (written hX twice)
  obtain ⟨r, h1, h2, _⟩ := hk (k + 5) (by omega)
  obtain ⟨d, hd⟩ := twice_ins k
  rw [hd] at h1
  cases h1
  exact nf (h2.mp rfl).2

theorem mem_tidy : (mem 0x82000000#32).tidy := by
  intro c k h
  obtain ⟨sp, i⟩ := c
  exfalso
  cases sp with
  | stem =>
    have := at_list (l := [0xC5000406#32, 0x85000000#32, 0x84000007#32, 1#32, 0x84000009#32, 5#32, 0#32, 0xC1000001#32, 0x8400000C#32, 0xC7000000#32, 6#32, 77#32, 0xC3000302#32, 1#32, 2#32]) h
    have e : [0xC5000406#32, 0x85000000#32, 0x84000007#32, 1#32, 0x84000009#32, 5#32, 0#32, 0xC1000001#32, 0x8400000C#32, 0xC7000000#32, 6#32, 77#32, 0xC3000302#32, 1#32, 2#32].map kind = [.op, .rptr 0, .iptr 7, .atom, .iptr 9, .atom, .atom, .struct 1, .iptr 12, .raw 2, .atom, .atom, .struct 2, .atom, .atom] := by decide
    rw [e] at this
    simp at this
  | val => cases h
  | obj o =>
    by_cases h6 : o = 6
    · subst h6
      have := at_list (l := [0xC3000102#32, 0x84000003#32, 0x84000005#32, 0xC1000001#32, 0x84000006#32, 0xC1000000#32, 0xC3000202#32, 0x84000009#32, 0x84000005#32, 0xC3000302#32, 0x82000000#32, 0x82000000#32]) h
      have e : [0xC3000102#32, 0x84000003#32, 0x84000005#32, 0xC1000001#32, 0x84000006#32, 0xC1000000#32, 0xC3000202#32, 0x84000009#32, 0x84000005#32, 0xC3000302#32, 0x82000000#32, 0x82000000#32].map kind = [.struct 2, .iptr 3, .iptr 5, .struct 1, .iptr 6, .struct 0, .struct 2, .iptr 9, .iptr 5, .struct 2, .wild, .wild] := by decide
      rw [e] at this
      simp at this
    · by_cases h4 : o = 4 <;> simp [mem, Mem.at, Mem.word, h6, h4] at h

/-- The program with two variables. -/
theorem C161_nonvacuous : (mem 0x82000000#32).tidy ∧ Operands (mem 0x82000000#32) ⟨.stem, 0⟩ (asked ⟨.obj 6, 11⟩) ∧ Written (mem 0x82000000#32) 6 (tpl ⟨.obj 6, 11⟩) ∧
    Neat (tpl ⟨.obj 6, 11⟩) (asked ⟨.obj 6, 11⟩).as ∧ Copied (mem 0x82000000#32) ⟨.stem, 0⟩ (asked ⟨.obj 6, 11⟩).as ∧ Fit (tpl ⟨.obj 6, 11⟩) (asked ⟨.obj 6, 11⟩).as ∧
    (∀ i, i < (tpl ⟨.obj 6, 11⟩).n → linear ((tpl ⟨.obj 6, 11⟩).skel i) (nth (asked ⟨.obj 6, 11⟩).as i)) ∧
    ∃ d, ins (mem 0x82000000#32) ops 5 ⟨.stem, 0⟩ = some (some d) ∧ d.code 0 = some 0xCB000307#32 := by
  have hX : Choice 0x82000000#32 := .inr rfl
  have hl : linear (skel ⟨.obj 6, 11⟩) couple := by
    have : holes (skel ⟨.obj 6, 11⟩) couple = [(⟨.obj 6, 10⟩, .atom ⟨.stem, 13⟩ 1#32), (⟨.obj 6, 11⟩, .atom ⟨.stem, 14⟩ 2#32)] := rfl
    rw [linear, this]
    simp
  refine ⟨mem_tidy, operands hX once, written hX once, ⟨fun i _ => ⟨?_, ?_⟩, ?_, ?_⟩, ⟨⟨⟨.stem, 7⟩, set_go hX, couple_fair hX⟩, by decide, by decide⟩, ⟨rfl, fun i hi => ?_⟩, fun i hi => ?_, _, rfl, ?_⟩
  · simp [tpl, skel, Val.tame]
  · simp only [tpl, skel, Val.counted, and_true]; decide
  · simp [asked, couple, Val.tame]
  · simp only [asked, couple, Val.counted, and_true]; decide
  · obtain rfl : i = 0 := Nat.lt_one_iff.mp hi
    exact ⟨by decide, linear_consistent hl⟩
  · obtain rfl : i = 0 := Nat.lt_one_iff.mp hi
    exact hl
  · decide

end Verif.Ins
