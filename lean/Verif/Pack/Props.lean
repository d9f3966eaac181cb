import Verif.Pack.Lemmas
/-!
# Property C38
-/
namespace Verif.Pack
open Verif.Atom Verif.Words Verif.Match

/-! ## What is to be preserved -/

/-- The positions of an object that belong to it: its arguments and what they lead to. -/
def InObj (o : Obj) (x : Nat) : Prop := ∃ hd k, o.code[0]? = some hd ∧ k ≤ count hd ∧ From o k x

/-- The new object says the same as the old one: same words, and references to the same objects. -/
def SameObj (o : Obj) (n : New) : Prop :=
  (∀ x, InObj o x → ∃ w w', o.code[x]? = some w ∧ n.code x = some w' ∧ SameWord o n.refs w w') ∧
  (∀ x w', n.code x = some w' → ∃ w, o.code[x]? = some w ∧ SameWord o n.refs w w')

/-- The new fact says the same as the old one. -/
def SameFact (h : Heap) (f : Obj) (n : Fact) : Prop :=
  n.code.length = f.code.length ∧ n.refs.length ≤ n.code.length ∧
  ∀ (i : Nat) (w : Word), f.code[i]? = some w → ∃ w', n.code[i]? = some w' ∧
    (isRPtr w = true → ∃ j c o, w' = rp j ∧ n.refs[j]? = some (.new c) ∧
      (f.refs[ix w]?).bind h = some o ∧ SameObj o c) ∧
    (isRPtr w = false → w' = w)

/-- What a pattern must look like: no structures of its own (its timings are variables), contents of
the shape `ObjShape`. -/
structure FactShape (h : Heap) (f : Obj) : Prop where
  head : ∃ hd, f.code[0]? = some hd ∧ isRPtr hd = false ∧ f.code.length = count hd + 1
  flat : ∀ (i : Nat) (w : Word), f.code[i]? = some w → isIPtr w = false
  refs : ∀ (i : Nat) (w : Word), f.code[i]? = some w → isRPtr w = true →
    ∃ o, (f.refs[ix w]?).bind h = some o ∧ ObjShape o

/-- The layout of an unpacked model: header and template arguments up to `psi`, the set of `n`
patterns at `psi`, the guards from `fwd` on, the set of `g` output groups at `grp`. -/
structure HlpShape (h : Heap) (o : Obj) (psi n fwd bwd grp g : Nat) : Prop where
  objs : o.code[2]? = some (ip psi)
  fwdGuards : o.code[3]? = some (ip fwd)
  bwdGuards : o.code[4]? = some (ip bwd)
  outGrps : o.code[5]? = some (ip grp)
  psi_ge : 6 ≤ psi
  fwd_eq : fwd = psi + n + 1
  bwd_ge : fwd ≤ bwd
  grp_ge : fwd ≤ grp
  patternSet : ∃ w, o.code[psi]? = some w ∧ count w = n
  groupSet : ∃ w, o.code[grp]? = some w ∧ count w = g ∧ isIPtr w = false ∧ isAssign w = false
  bounds : grp + g < o.code.length ∧ bwd < o.code.length
  groups : ∀ j, j < g → ∃ w r, o.code[grp + 1 + j]? = some w ∧ isRPtr w = true ∧ o.refs[ix w]? = some r
  patterns : ∀ i, i < n → ∃ f fo, o.refs[i]? = some f ∧ h f = some fo ∧ FactShape h fo

/-- Words of the guards that look like pointers are pointers. -/
def Decoded (o : Obj) (fwd : Nat) : Prop :=
  ∀ (p : Nat) (w : Word), fwd ≤ p → o.code[p]? = some w →
    (isIPtr w = true → w = ip (ix w) ∧ ix w < o.code.length) ∧
    (isAssign w = true → w = assignmentPointer (asAssignmentIndex w) (BitVec.ofNat 16 (ix w)) ∧ ix w < o.code.length)

/-- The unpacked model says the same as the original: same code, the patterns referred to in order,
then the groups. -/
def SameHlp (h : Heap) (o : Obj) (psi n grp g : Nat) (u : Unpacked) : Prop :=
  u.code.length = o.code.length ∧ u.facts.length = n ∧ u.groups.length = g ∧
  (∀ (p : Nat) (w : Word), o.code[p]? = some w → u.code[p]? =
    if psi < p ∧ p ≤ psi + n then some (rp (p - psi - 1))
    else if grp < p ∧ p ≤ grp + g then some (rp (n + (p - grp - 1)))
    else some w) ∧
  (∀ i, i < n → ∃ f fo nf, o.refs[i]? = some f ∧ h f = some fo ∧ u.facts[i]? = some nf ∧ SameFact h fo nf) ∧
  (∀ j, j < g → ∃ w r, o.code[grp + 1 + j]? = some w ∧ o.refs[ix w]? = some r ∧ u.groups[j]? = some r)

/-! ## Lists -/

theorem mapM_some {α β : Type} (f : α → Option β) (l : List α) (hf : ∀ x ∈ l, ∃ y, f x = some y) :
    ∃ r, l.mapM f = some r ∧ r.length = l.length ∧
      ∀ (i : Nat) (x : α), l[i]? = some x → ∃ y, r[i]? = some y ∧ f x = some y := by
  induction l with
  | nil => exact ⟨[], by simp, rfl, fun i x hx => by simp at hx⟩
  | cons a l ih =>
    obtain ⟨y, hy⟩ := hf a (by simp)
    obtain ⟨r, h1, h2, h3⟩ := ih fun x hx => hf x (List.mem_cons_of_mem _ hx)
    refine ⟨y :: r, by simp [List.mapM_cons, hy, h1], by simp [h2], ?_⟩
    intro i x hx
    cases i with
    | zero => simp only [List.getElem?_cons_zero, Option.some.injEq] at hx; subst hx; exact ⟨y, by simp, hy⟩
    | succ i => simp only [List.getElem?_cons_succ] at hx ⊢; exact h3 i x hx

theorem mapM_inv {α β : Type} (f : α → Option β) (l : List α) (r : List β) (h : l.mapM f = some r) :
    r.length = l.length ∧ ∀ (i : Nat) (x : α), l[i]? = some x → ∃ y, r[i]? = some y ∧ f x = some y := by
  induction l generalizing r with
  | nil =>
    simp only [List.mapM_nil, Option.pure_def, Option.some.injEq] at h
    subst h
    exact ⟨rfl, fun i x hx => by simp at hx⟩
  | cons a l ih =>
    simp only [List.mapM_cons, Option.pure_def, Option.bind_eq_bind] at h
    cases ha : f a with
    | none => rw [ha] at h; cases h
    | some y =>
      rw [ha] at h
      simp only [Option.bind_some] at h
      cases hl : l.mapM f with
      | none => rw [hl] at h; cases h
      | some t =>
        rw [hl] at h
        simp only [Option.bind_some, Option.some.injEq] at h
        subst h
        obtain ⟨h1, h2⟩ := ih t hl
        refine ⟨by simp [h1], ?_⟩
        intro i x hx
        cases i with
        | zero => simp only [List.getElem?_cons_zero, Option.some.injEq] at hx; subst hx; exact ⟨y, by simp, ha⟩
        | succ i => simp only [List.getElem?_cons_succ] at hx ⊢; exact h2 i x hx

theorem lt_of_get {α : Type} {l : List α} {i : Nat} {x : α} (h : l[i]? = some x) : i < l.length := by
  by_contra hc
  rw [List.getElem?_eq_none (by omega)] at h; cases h

theorem splice_get (code : List Word) (a : Nat) (new : List Word) (h : a + new.length ≤ code.length) (p : Nat) :
    (splice code a new)[p]? = if p < a then code[p]? else if p < a + new.length then new[p - a]? else code[p]? := by
  unfold splice
  have hl : (code.take a).length = a := by simp; omega
  by_cases h1 : p < a
  · rw [if_pos h1, List.append_assoc, List.getElem?_append_left (by omega), List.getElem?_take_of_lt h1]
  · rw [if_neg h1]
    by_cases h2 : p < a + new.length
    · rw [if_pos h2, List.getElem?_append_left (by simp; omega), List.getElem?_append_right (by omega), hl]
    · rw [if_neg h2, List.getElem?_append_right (by simp; omega), List.getElem?_drop]
      congr 1
      simp; omega

theorem splice_length (code : List Word) (a : Nat) (new : List Word) (h : a + new.length ≤ code.length) :
    (splice code a new).length = code.length := by
  unfold splice; simp; omega

theorem insert_get (code zone : List Word) (f : Word → Word) (a : Nat) (h : a ≤ code.length) (p : Nat) :
    (code.take a ++ zone ++ (code.drop a).map f)[p]? =
      if p < a then code[p]? else if p < a + zone.length then zone[p - a]? else (code[p - zone.length]?).map f := by
  have hl : (code.take a).length = a := by simp; omega
  by_cases h1 : p < a
  · rw [if_pos h1, List.append_assoc, List.getElem?_append_left (by omega), List.getElem?_take_of_lt h1]
  · rw [if_neg h1]
    by_cases h2 : p < a + zone.length
    · rw [if_pos h2, List.getElem?_append_left (by simp; omega), List.getElem?_append_right (by omega), hl]
    · rw [if_neg h2, List.getElem?_append_right (by simp; omega), List.getElem?_map, List.getElem?_drop]
      congr 2
      simp; omega

/-! ## Packing -/

theorem getD_of_get {l : List Word} {i : Nat} {w : Word} (h : l[i]? = some w) : l.getD i 0 = w := by
  rw [List.getD_eq_getElem?_getD, h]; rfl

/-- The three pointers adjusted, the rest as it was. -/
theorem bumps_get (L : Nat) (c : List Word) (a b d : Word) (h3 : c[3]? = some a) (h4 : c[4]? = some b)
    (h5 : c[5]? = some d) (p : Nat) :
    (bump L (bump L (bump L c 3) 4) 5)[p]? = if p = 3 then some (ip (ix a + L)) else if p = 4 then some (ip (ix b + L))
      else if p = 5 then some (ip (ix d + L)) else c[p]? := by
  have l3 := lt_of_get h3
  have l4 := lt_of_get h4
  have l5 := lt_of_get h5
  have e4 : (bump L c 3)[4]? = some b := by unfold bump; rw [List.getElem?_set_ne (by omega)]; exact h4
  have e5 : (bump L (bump L c 3) 4)[5]? = some d := by
    unfold bump; rw [List.getElem?_set_ne (by omega), List.getElem?_set_ne (by omega)]; exact h5
  have x3 : bump L c 3 = c.set 3 (ip (ix a + L)) := by unfold bump; rw [getD_of_get h3]
  have x4 : bump L (bump L c 3) 4 = (bump L c 3).set 4 (ip (ix b + L)) := by
    rw [bump, getD_of_get e4]
  have x5 : bump L (bump L (bump L c 3) 4) 5 = (bump L (bump L c 3) 4).set 5 (ip (ix d + L)) := by
    rw [bump, getD_of_get e5]
  rw [x5, x4, x3]
  simp only [List.getElem?_set, List.length_set]
  by_cases p3 : p = 3
  · subst p3; simp [l3]
  by_cases p4 : p = 4
  · subst p4; simp [l4]
  by_cases p5 : p = 5
  · subst p5; simp [l5]
  rw [if_neg (Ne.symm p5), if_neg (Ne.symm p4), if_neg (Ne.symm p3), if_neg p3, if_neg p4, if_neg p5]

theorem bumps_length (L : Nat) (c : List Word) : (bump L (bump L (bump L c 3) 4) 5).length = c.length := by
  simp [bump]

/-- What the packed model looks like. -/
structure Packed (h : Heap) (o p : Obj) (psi n fwd bwd grp g L : Nat) (starts : List Nat) : Prop where
  len : p.code.length = o.code.length + L
  objs : p.code[2]? = some (ip psi)
  fwdGuards : p.code[3]? = some (ip (fwd + L))
  bwdGuards : p.code[4]? = some (ip (bwd + L))
  outGrps : p.code[5]? = some (ip (grp + L))
  front : ∀ x, x ≤ psi → x ≠ 3 → x ≠ 4 → x ≠ 5 → p.code[x]? = o.code[x]?
  nstarts : starts.length = n
  entries : ∀ i, i < n → ∃ s, starts[i]? = some s ∧ p.code[psi + 1 + i]? = some (ip s)
  tail : ∀ x, fwd ≤ x → ¬ (grp < x ∧ x ≤ grp + g) → p.code[x + L]? = (o.code[x]?).map (shift L)
  groups : ∀ j, j < g → ∃ k w r, p.code[grp + L + 1 + j]? = some (rp k) ∧ p.refs[k]? = some r ∧
    o.code[grp + 1 + j]? = some w ∧ o.refs[ix w]? = some r
  facts : ∀ i, i < n → ∃ f fo s, o.refs[i]? = some f ∧ h f = some fo ∧ starts[i]? = some s ∧
    s + fo.code.length ≤ p.code.length ∧ FactAt h p.code p.refs s fo

theorem FactAt.mono {h : Heap} {P : List Word} {a b : List Nat} {s : Nat} {f : Obj} (hf : FactAt h P a s f)
    (hp : a <+: b) : FactAt h P b s f := by
  intro i w hw
  obtain ⟨h1, h2⟩ := hf i w hw
  refine ⟨fun q => ?_, h2⟩
  obtain ⟨o, e, e1, e2, e3, e4⟩ := h1 q
  refine ⟨o, e, e1, e2, e3, fun x v hv => ?_⟩
  obtain ⟨v', k1, k2⟩ := e4 x v hv
  exact ⟨v', k1, k2.mono hp⟩

theorem pack_inv (h : Heap) (o p : Obj) (psi n fwd bwd grp g : Nat) (hs : HlpShape h o psi n fwd bwd grp g)
    (hsz : o.code.length ≤ 4096) (hp : pack h o = some p) :
    ∃ L starts, Packed h o p psi n fwd bwd grp g L starts := by
  obtain ⟨ps, hps, hn⟩ := hs.patternSet
  obtain ⟨gs, hgs, hg, hgi, hga⟩ := hs.groupSet
  have hb := hs.bounds
  have hfe := hs.fwd_eq
  have hpg := hs.psi_ge
  have hgg := hs.grp_ge
  have hbg := hs.bwd_ge
  have ipsi : ix (ip psi) = psi := ix_ip (by omega)
  have ifwd : ix (ip fwd) = fwd := ix_ip (by omega)
  have ibwd : ix (ip bwd) = bwd := ix_ip (by omega)
  have igrp : ix (ip grp) = grp := ix_ip (by omega)
  unfold pack at hp
  rw [hs.objs, hs.fwdGuards, hs.outGrps] at hp
  simp only [ipsi, ifwd, igrp, hps, hgs, hn, hg] at hp
  rw [if_pos (by omega)] at hp
  cases hpp : packPatterns h fwd (o.refs.take n) [] with
  | none => rw [hpp] at hp; cases hp
  | some q =>
    obtain ⟨starts, zone, refs⟩ := q
    rw [hpp] at hp
    simp only at hp
    generalize hL : zone.length = L at hp
    generalize hpat : splice o.code (psi + 1) (starts.map ip) = patched at hp
    generalize hmov : patched.take fwd ++ zone ++ (patched.drop fwd).map (shift L) = moved at hp
    generalize hcode : bump L (bump L (bump L moved 3) 4) 5 = code at hp
    cases hgr : ((code.drop (grp + L + 1)).take g).mapM (fun w => o.refs[ix w]?) with
    | none => rw [hgr] at hp; cases hp
    | some groups =>
      rw [hgr] at hp
      simp only [Option.some.injEq] at hp
      have hrn : (o.refs.take n).length = n := by
        rw [List.length_take]
        by_cases h0 : n = 0
        · omega
        · obtain ⟨f, fo, hf, _⟩ := hs.patterns (n - 1) (by omega)
          have := lt_of_get hf
          omega
      have hstarts : starts.length = n := by
        have := (packPatterns_spec h _ _ _ _ _ _ hpp (List.replicate fwd 0 ++ zone) (by
          intro i w hw
          rw [List.getElem?_append_right (by simp)]; simpa using hw) (by simp)).1
        omega
      -- pointwise descriptions of the stages
      have gpat : ∀ x, patched[x]? = if x < psi + 1 then o.code[x]? else if x < fwd then (starts.map ip)[x - (psi + 1)]?
          else o.code[x]? := by
        intro x
        rw [← hpat, splice_get _ _ _ (by simp; omega)]
        simp only [List.length_map, hstarts]
        rw [show psi + 1 + n = fwd by omega]
      have lpat : patched.length = o.code.length := by rw [← hpat, splice_length _ _ _ (by simp; omega)]
      have gmov : ∀ x, moved[x]? = if x < fwd then patched[x]? else if x < fwd + L then zone[x - fwd]?
          else (patched[x - L]?).map (shift L) := by
        intro x
        rw [← hmov, insert_get _ _ _ _ (by omega), hL]
      have lmov : moved.length = o.code.length + L := by
        rw [← hmov]; simp [hL, lpat]; omega
      have m3 : moved[3]? = some (ip fwd) := by
        rw [gmov, if_pos (by omega), gpat, if_pos (by omega)]; exact hs.fwdGuards
      have m4 : moved[4]? = some (ip bwd) := by
        rw [gmov, if_pos (by omega), gpat, if_pos (by omega)]; exact hs.bwdGuards
      have m5 : moved[5]? = some (ip grp) := by
        rw [gmov, if_pos (by omega), gpat, if_pos (by omega)]; exact hs.outGrps
      have gcode : ∀ x, code[x]? = if x = 3 then some (ip (fwd + L)) else if x = 4 then some (ip (bwd + L))
          else if x = 5 then some (ip (grp + L)) else moved[x]? := by
        intro x
        rw [← hcode, bumps_get L moved _ _ _ m3 m4 m5, ifwd, ibwd, igrp]
      have lcode : code.length = o.code.length + L := by rw [← hcode, bumps_length, lmov]
      have gtail : ∀ x, fwd ≤ x → code[x + L]? = (o.code[x]?).map (shift L) := by
        intro x hx
        rw [gcode, if_neg (by omega), if_neg (by omega), if_neg (by omega), gmov, if_neg (by omega),
          if_neg (by omega), Nat.add_sub_cancel, gpat, if_neg (by omega), if_neg (by omega)]
      obtain ⟨lgr, ggr⟩ := mapM_inv _ _ _ hgr
      have lgr' : groups.length = g := by rw [lgr]; simp [lcode]; omega
      have gfin : ∀ x, p.code[x]? = if x < grp + L + 1 then code[x]? else if x < grp + L + 1 + g then
          some (rp (refs.length + (x - (grp + L + 1)))) else code[x]? := by
        intro x
        rw [← hp, splice_get _ _ _ (by simp [lcode]; omega)]
        simp only [List.length_map, List.length_range]
        by_cases h1 : x < grp + L + 1
        · rw [if_pos h1, if_pos h1]
        · rw [if_neg h1, if_neg h1]
          by_cases h2 : x < grp + L + 1 + g
          · rw [if_pos h2, if_pos h2, List.getElem?_map, List.getElem?_range (by omega)]; rfl
          · rw [if_neg h2, if_neg h2]
      have lfin : p.code.length = o.code.length + L := by
        rw [← hp, splice_length _ _ _ (by simp [lcode]; omega), lcode]
      have hat : At p.code fwd zone := by
        intro i w hw
        have hi := lt_of_get hw
        rw [gfin, if_pos (by omega), gcode, if_neg (by omega), if_neg (by omega), if_neg (by omega), gmov,
          if_neg (by omega), if_pos (by omega), Nat.add_sub_cancel_left]
        exact hw
      obtain ⟨_, _, hfacts⟩ := packPatterns_spec h _ _ _ _ _ _ hpp p.code hat (by omega)
      have hprefs : p.refs = refs ++ groups := by rw [← hp]
      refine ⟨L, starts, lfin, ?_, ?_, ?_, ?_, ?_, hstarts, ?_, ?_, ?_, ?_⟩
      · rw [gfin, if_pos (by omega), gcode, if_neg (by omega), if_neg (by omega), if_neg (by omega), gmov,
          if_pos (by omega), gpat, if_pos (by omega)]; exact hs.objs
      · rw [gfin, if_pos (by omega), gcode, if_pos rfl]
      · rw [gfin, if_pos (by omega), gcode, if_neg (by omega), if_pos rfl]
      · rw [gfin, if_pos (by omega), gcode, if_neg (by omega), if_neg (by omega), if_pos rfl]
      · intro x hx x3 x4 x5
        rw [gfin, if_pos (by omega), gcode, if_neg x3, if_neg x4, if_neg x5, gmov, if_pos (by omega), gpat,
          if_pos (by omega)]
      · intro i hi
        refine ⟨starts[i]'(by omega), List.getElem?_eq_getElem (by omega), ?_⟩
        rw [gfin, if_pos (by omega), gcode, if_neg (by omega), if_neg (by omega), if_neg (by omega), gmov,
          if_pos (by omega), gpat, if_neg (by omega), if_pos (by omega), List.getElem?_map,
          show psi + 1 + i - (psi + 1) = i by omega, List.getElem?_eq_getElem (by omega)]
        rfl
      · intro x hx hng
        rw [gfin]
        by_cases h1 : x + L < grp + L + 1
        · rw [if_pos h1]; exact gtail x hx
        · rw [if_neg h1, if_neg (by omega)]; exact gtail x hx
      · intro j hj
        obtain ⟨w, r, hw, hwr, hr⟩ := hs.groups j hj
        have hcw : code[grp + L + 1 + j]? = some w := by
          rw [show grp + L + 1 + j = (grp + 1 + j) + L by omega, gtail _ (by omega), hw, Option.map_some, shift_R L hwr]
        have hcw' : ((code.drop (grp + L + 1)).take g)[j]? = some w := by
          rw [List.getElem?_take_of_lt hj, List.getElem?_drop, hcw]
        obtain ⟨y, y1, y2⟩ := ggr j w hcw'
        rw [hr] at y2; cases y2
        refine ⟨refs.length + j, w, r, ?_, ?_, hw, hr⟩
        · rw [gfin, if_neg (by omega), if_pos (by omega)]; congr 3; omega
        · rw [hprefs, List.getElem?_append_right (by omega), Nat.add_sub_cancel_left]; exact y1
      · intro i hi
        obtain ⟨f, fo, hf, _, _⟩ := hs.patterns i hi
        obtain ⟨fo', s, e1, e2, e3, e4⟩ := hfacts i f (by rw [List.getElem?_take_of_lt hi]; exact hf)
        exact ⟨f, fo', s, hf, e1, e2, by omega, by rw [hprefs]; exact e4.mono (List.prefix_append _ _)⟩

/-! ## Unpacking -/

theorem unpackObject_same (o p : Obj) (e k : Nat) (hsh : ObjShape o)
    (hemb : ∀ (x : Nat) (v : Word), o.code[x]? = some v → ∃ v', p.code[e + x]? = some v' ∧ Rep o e p.refs v v')
    (hsize : e + o.code.length ≤ 4096) (hrefs : p.refs.length ≤ 4096) (hk : o.code.length < k) :
    ∃ c, unpackObject p k e = some c ∧ SameObj o c := by
  obtain ⟨hd, h1, h2, h3, h4⟩ := hsh.head
  obtain ⟨hd', q1, q2⟩ := hemb 0 hd h1
  obtain rfl := q2.2.2 h2 h3
  rw [Nat.add_zero] at q1
  obtain ⟨c, c1, c2, _, c4⟩ := unpackWords_spec o p e hsh hemb hsize hrefs k (count hd' + 1) 0 ⟨fun _ => none, []⟩
    (by omega) (by omega) (fun x w hw => by cases hw)
  refine ⟨c, by unfold unpackObject; rw [q1]; exact c1, ?_, c2⟩
  rintro x ⟨hd, j, e1, e2, e3⟩
  rw [h1] at e1; cases e1
  have := c4 j (by omega) x (by rw [Nat.zero_add]; exact e3)
  cases hx : c.code x with
  | none => rw [hx] at this; cases this
  | some w' =>
    obtain ⟨w, w1, w2⟩ := c2 x w' hx
    exact ⟨w, w', w1, rfl, w2⟩

theorem prefix_get' {α : Type} {a b : List α} (h : a <+: b) {j : Nat} {r : α} (hj : a[j]? = some r) : b[j]? = some r := by
  obtain ⟨c, rfl⟩ := h
  rw [List.getElem?_append_left (lt_of_get hj)]
  exact hj

theorem unpackFactWords_same (h : Heap) (fo p : Obj) (k : Nat) (ows pws : List Word) (f : Fact)
    (hlen : pws.length = ows.length)
    (hrel : ∀ (i : Nat) (w : Word), ows[i]? = some w → ∃ pw, pws[i]? = some pw ∧
      (isRPtr w = true → ∃ o e c, (fo.refs[ix w]?).bind h = some o ∧ pw = ip e ∧ e < 4096 ∧
        unpackObject p k e = some c ∧ SameObj o c) ∧
      (isRPtr w = false → pw = w ∧ isIPtr w = false)) :
    ∃ f', unpackFactWords p k pws f = some f' ∧ f'.code.length = f.code.length + ows.length ∧
      f.code <+: f'.code ∧ f.refs <+: f'.refs ∧ f'.refs.length ≤ f.refs.length + ows.length ∧
      ∀ (i : Nat) (w : Word), ows[i]? = some w → ∃ w', f'.code[f.code.length + i]? = some w' ∧
        (isRPtr w = true → ∃ j c o, w' = rp j ∧ f'.refs[j]? = some (.new c) ∧
          (fo.refs[ix w]?).bind h = some o ∧ SameObj o c) ∧
        (isRPtr w = false → w' = w) := by
  induction ows generalizing pws f with
  | nil =>
    have : pws = [] := List.length_eq_zero_iff.mp (by simpa using hlen)
    subst this
    exact ⟨f, rfl, by simp, List.prefix_refl _, List.prefix_refl _, by simp, fun i w hw => by simp at hw⟩
  | cons w ws ih =>
    cases pws with
    | nil => simp at hlen
    | cons pw pws =>
      have hlen' : pws.length = ws.length := by simpa using hlen
      have hrel' := fun i v (hv : ws[i]? = some v) => hrel (i + 1) v (by simpa using hv)
      simp only [List.getElem?_cons_succ] at hrel'
      obtain ⟨pw', e0, hR, hN⟩ := hrel 0 w (by simp)
      simp only [List.getElem?_cons_zero, Option.some.injEq] at e0
      subst e0
      -- after writing `x` and having `refs` references
      have fin : ∀ (x : Word) (refs : List Content), f.refs <+: refs → refs.length ≤ f.refs.length + 1 →
          ((isRPtr w = true → ∃ j c o, x = rp j ∧ refs[j]? = some (.new c) ∧
            (fo.refs[ix w]?).bind h = some o ∧ SameObj o c) ∧ (isRPtr w = false → x = w)) →
          ∃ f', unpackFactWords p k pws ⟨f.code ++ [x], refs⟩ = some f' ∧
            f'.code.length = f.code.length + (w :: ws).length ∧
            f.code <+: f'.code ∧ f.refs <+: f'.refs ∧ f'.refs.length ≤ f.refs.length + (w :: ws).length ∧
            ∀ (i : Nat) (v : Word), (w :: ws)[i]? = some v → ∃ w', f'.code[f.code.length + i]? = some w' ∧
              (isRPtr v = true → ∃ j c o, w' = rp j ∧ f'.refs[j]? = some (.new c) ∧
                (fo.refs[ix v]?).bind h = some o ∧ SameObj o c) ∧
              (isRPtr v = false → w' = v) := by
        intro x refs p1 p2 p3
        obtain ⟨f', a1, a2, a3, a4, a5, a6⟩ := ih pws ⟨f.code ++ [x], refs⟩ hlen' hrel'
        refine ⟨f', a1, by rw [a2]; simp; omega, (List.prefix_append _ _).trans a3, p1.trans a4, by
          simp only [List.length_cons]; simp only at a5; omega, ?_⟩
        intro i v hv
        cases i with
        | zero =>
          simp only [List.getElem?_cons_zero, Option.some.injEq] at hv
          subst hv
          refine ⟨x, prefix_get' a3 (by simp), fun q => ?_, p3.2⟩
          obtain ⟨j, c, o, b1, b2, b3⟩ := p3.1 q
          exact ⟨j, c, o, b1, prefix_get' a4 b2, b3⟩
        | succ i =>
          simp only [List.getElem?_cons_succ] at hv
          obtain ⟨w', b1, b2⟩ := a6 i v hv
          refine ⟨w', ?_, b2⟩
          simp only [List.length_append, List.length_cons, List.length_nil] at b1
          rw [← b1]; congr 1; omega
      simp only [unpackFactWords]
      by_cases hr : isRPtr w = true
      · obtain ⟨o, e, c, h1, rfl, h3, h4, h5⟩ := hR hr
        rw [if_pos (isI_ip e), ix_ip h3, h4]
        simp only
        refine fin _ _ (List.prefix_append _ _) (by simp) ⟨fun _ => ⟨f.refs.length, c, o, rfl, by simp, h1, h5⟩, fun q => ?_⟩
        rw [hr] at q; cases q
      · have hr' : isRPtr w = false := by simpa using hr
        obtain ⟨rfl, hi⟩ := hN hr'
        rw [if_neg (by rw [hi]; simp), if_neg hr]
        exact fin _ _ (List.prefix_refl _) (by omega) ⟨fun q => (by rw [hr'] at q; cases q), fun _ => rfl⟩

theorem unpackFact_same (h : Heap) (fo p : Obj) (k s : Nat) (hsh : FactShape h fo) (hat : FactAt h p.code p.refs s fo)
    (hs : s + fo.code.length ≤ p.code.length) (hsize : p.code.length ≤ 4096) (hrefs : p.refs.length ≤ 4096)
    (hk : 4096 < k) : ∃ f, unpackFact p k s = some f ∧ SameFact h fo f := by
  obtain ⟨hd, h1, h2, h3⟩ := hsh.head
  have q1 := (hat 0 hd h1).2 h2
  rw [Nat.add_zero] at q1
  have hwlen : ((p.code.drop s).take (count hd + 1)).length = fo.code.length := by simp; omega
  obtain ⟨f, f1, f2, _, _, f5, f6⟩ := unpackFactWords_same h fo p k fo.code ((p.code.drop s).take (count hd + 1)) ⟨[], []⟩
    hwlen (by
      intro i w hw
      have hi := lt_of_get hw
      obtain ⟨a1, a2⟩ := hat i w hw
      have hget : ((p.code.drop s).take (count hd + 1))[i]? = p.code[s + i]? := by
        rw [List.getElem?_take_of_lt (by omega), List.getElem?_drop]
      by_cases hr : isRPtr w = true
      · obtain ⟨o, e, e1, e2, e3, e4⟩ := a1 hr
        obtain ⟨o', e1', osh⟩ := hsh.refs i w hw hr
        rw [e1] at e1'; cases e1'
        obtain ⟨hd0, z1, _⟩ := osh.head
        have := lt_of_get z1
        obtain ⟨c, c1, c2⟩ := unpackObject_same o p e k osh e4 (by omega) hrefs (by omega)
        refine ⟨ip e, by rw [hget]; exact e2, fun _ => ⟨o, e, c, e1, rfl, by omega, c1, c2⟩, fun q => ?_⟩
        rw [hr] at q; cases q
      · have hr' : isRPtr w = false := by simpa using hr
        refine ⟨w, by rw [hget]; exact a2 hr', fun q => ?_, fun _ => ⟨rfl, hsh.flat i w hw⟩⟩
        rw [hr'] at q; cases q)
  refine ⟨f, ?_, ?_, ?_, ?_⟩
  · unfold unpackFact
    rw [q1]
    simp only
    rw [if_pos (by omega)]; exact f1
  · simpa using f2
  · simp only [List.length_nil, Nat.zero_add] at f2 f5; omega
  · intro i w hw
    obtain ⟨w', b1, b2⟩ := f6 i w hw
    exact ⟨w', by simpa using b1, b2⟩

theorem lowers_get (L : Nat) (p : Obj) (c : List Word) (a b d : Word) (h3 : p.code[3]? = some a)
    (h4 : p.code[4]? = some b) (h5 : p.code[5]? = some d) (hc : 5 < c.length) (x : Nat) :
    (lower L p (lower L p (lower L p c 3) 4) 5)[x]? = if x = 3 then some (ip (ix a - L)) else if x = 4 then
      some (ip (ix b - L)) else if x = 5 then some (ip (ix d - L)) else c[x]? := by
  unfold lower
  rw [getD_of_get h3, getD_of_get h4, getD_of_get h5]
  simp only [List.getElem?_set, List.length_set]
  by_cases p3 : x = 3
  · subst p3; simp; omega
  by_cases p4 : x = 4
  · subst p4; simp; omega
  by_cases p5 : x = 5
  · subst p5; simp; omega
  rw [if_neg (Ne.symm p5), if_neg (Ne.symm p4), if_neg (Ne.symm p3), if_neg p3, if_neg p4, if_neg p5]

/-- Everything but the words of the guards, for any guards: they come out as the two shifts leave
them. -/
theorem unpack_pack (h : Heap) (o p : Obj) (psi n fwd bwd grp g L : Nat) (starts : List Nat)
    (hs : HlpShape h o psi n fwd bwd grp g) (hp : Packed h o p psi n fwd bwd grp g L starts)
    (hsize : p.code.length ≤ 4096) (hrefs : p.refs.length ≤ 4096) (k : Nat) (hk : 4096 < k) :
    ∃ u, unpack p k = some u ∧ u.code.length = o.code.length ∧ u.facts.length = n ∧ u.groups.length = g ∧
      (∀ (x : Nat) (w : Word), o.code[x]? = some w → u.code[x]? =
        if psi < x ∧ x ≤ psi + n then some (rp (x - psi - 1))
        else if grp < x ∧ x ≤ grp + g then some (rp (n + (x - grp - 1)))
        else if fwd ≤ x then some (unshift L (shift L w)) else some w) ∧
      (∀ i, i < n → ∃ f fo nf, o.refs[i]? = some f ∧ h f = some fo ∧ u.facts[i]? = some nf ∧ SameFact h fo nf) ∧
      (∀ j, j < g → ∃ w r, o.code[grp + 1 + j]? = some w ∧ o.refs[ix w]? = some r ∧ u.groups[j]? = some r) := by
  obtain ⟨ps, hps, hn⟩ := hs.patternSet
  obtain ⟨gs, hgs, hg, hgi, hga⟩ := hs.groupSet
  have hb := hs.bounds
  have hfe := hs.fwd_eq
  have hpg := hs.psi_ge
  have hgg := hs.grp_ge
  have hbg := hs.bwd_ge
  have hl := hp.len
  have ipsi : ix (ip psi) = psi := ix_ip (by omega)
  have ifwd : ix (ip (fwd + L)) = fwd + L := ix_ip (by omega)
  have ibwd : ix (ip (bwd + L)) = bwd + L := ix_ip (by omega)
  have igrp : ix (ip (grp + L)) = grp + L := ix_ip (by omega)
  have hps' : p.code[psi]? = some ps := by rw [hp.front psi (by omega) (by omega) (by omega) (by omega)]; exact hps
  have hgs' : p.code[grp + L]? = some gs := by
    rw [hp.tail grp hgg (by omega), hgs, Option.map_some]
    unfold shift; rw [hgi, hga]; rfl
  -- the facts
  have hfl : ((p.code.drop (psi + 1)).take n).length = n := by simp; omega
  obtain ⟨facts, hfacts, hflen, hfget⟩ := mapM_some (fun w => unpackFact p k (ix w)) ((p.code.drop (psi + 1)).take n) (by
    intro w hw
    obtain ⟨i, hi, rfl⟩ := List.mem_iff_getElem.mp hw
    rw [hfl] at hi
    obtain ⟨s, s1, s2⟩ := hp.entries i hi
    obtain ⟨f, fo, s', f1, f2, f3, f4, f5⟩ := hp.facts i hi
    rw [s1] at f3; cases f3
    obtain ⟨f', fo', g1, g2, g3⟩ := hs.patterns i hi
    rw [f1] at g1; cases g1
    rw [f2] at g2; cases g2
    have : ((p.code.drop (psi + 1)).take n)[i]? = some (ip s) := by
      rw [List.getElem?_take_of_lt hi, List.getElem?_drop, s2]
    have e : ((p.code.drop (psi + 1)).take n)[i] = ip s := by
      rw [List.getElem?_eq_getElem (by omega)] at this; exact Option.some.inj this
    rw [e]
    obtain ⟨hd, hd1, _⟩ := g3.head
    have := lt_of_get hd1
    rw [ix_ip (by omega)]
    obtain ⟨nf, n1, _⟩ := unpackFact_same h fo p k s g3 f5 f4 hsize hrefs hk
    exact ⟨nf, n1⟩)
  have hgl : ((p.code.drop (grp + L + 1)).take g).length = g := by simp; omega
  have hgword : ∀ j, j < g → ∃ m w r, ((p.code.drop (grp + L + 1)).take g)[j]? = some (rp m) ∧ m < 4096 ∧
      p.refs[m]? = some r ∧ o.code[grp + 1 + j]? = some w ∧ o.refs[ix w]? = some r := by
    intro j hj
    obtain ⟨m, w, r, a1, a2, a3, a4⟩ := hp.groups j hj
    exact ⟨m, w, r, by rw [List.getElem?_take_of_lt hj, List.getElem?_drop, a1], by
      have := lt_of_get a2; omega, a2, a3, a4⟩
  obtain ⟨groups, hgroups, hglen, hgget⟩ := mapM_some (fun w => p.refs[ix w]?) ((p.code.drop (grp + L + 1)).take g) (by
    intro w hw
    obtain ⟨i, hi, rfl⟩ := List.mem_iff_getElem.mp hw
    rw [hgl] at hi
    obtain ⟨m, w, r, a1, a2, a3, _⟩ := hgword i hi
    have e : ((p.code.drop (grp + L + 1)).take g)[i] = rp m := by
      rw [List.getElem?_eq_getElem (by omega)] at a1; exact Option.some.inj a1
    rw [e, ix_rp a2]; exact ⟨r, a3⟩)
  generalize hc1 : splice p.code (psi + 1) ((List.range n).map rp) = c1
  generalize hc2 : splice c1 (grp + L + 1) ((List.range g).map fun j => rp (n + j)) = c2
  have g1 : ∀ x, c1[x]? = if x < psi + 1 then p.code[x]? else if x < fwd then some (rp (x - (psi + 1))) else p.code[x]? := by
    intro x
    rw [← hc1, splice_get _ _ _ (by simp; omega)]
    simp only [List.length_map, List.length_range]
    rw [show psi + 1 + n = fwd by omega]
    by_cases q1 : x < psi + 1
    · rw [if_pos q1, if_pos q1]
    · rw [if_neg q1, if_neg q1]
      by_cases q2 : x < fwd
      · rw [if_pos q2, if_pos q2, List.getElem?_map, List.getElem?_range (by omega)]; rfl
      · rw [if_neg q2, if_neg q2]
  have l1 : c1.length = p.code.length := by rw [← hc1, splice_length _ _ _ (by simp; omega)]
  have g2 : ∀ x, c2[x]? = if x < grp + L + 1 then c1[x]? else if x < grp + L + 1 + g then
      some (rp (n + (x - (grp + L + 1)))) else c1[x]? := by
    intro x
    rw [← hc2, splice_get _ _ _ (by simp; omega)]
    simp only [List.length_map, List.length_range]
    by_cases q1 : x < grp + L + 1
    · rw [if_pos q1, if_pos q1]
    · rw [if_neg q1, if_neg q1]
      by_cases q2 : x < grp + L + 1 + g
      · rw [if_pos q2, if_pos q2, List.getElem?_map, List.getElem?_range (by omega)]; rfl
      · rw [if_neg q2, if_neg q2]
  have l2 : c2.length = p.code.length := by rw [← hc2, splice_length _ _ _ (by simp; omega), l1]
  generalize hc3 : c2.take fwd ++ (c2.drop (fwd + L)).map (unshift L) = c3
  have g3 : ∀ x, c3[x]? = if x < fwd then c2[x]? else (c2[x + L]?).map (unshift L) := by
    intro x
    have ht : (c2.take fwd).length = fwd := by simp; omega
    rw [← hc3]
    by_cases q : x < fwd
    · rw [if_pos q, List.getElem?_append_left (by omega), List.getElem?_take_of_lt q]
    · rw [if_neg q, List.getElem?_append_right (by omega), List.getElem?_map, List.getElem?_drop, ht]
      congr 2; omega
  have l3 : c3.length = o.code.length := by rw [← hc3]; simp; omega
  have hun : unpack p k = some ⟨lower L p (lower L p (lower L p c3 3) 4) 5, facts, groups⟩ := by
    unfold unpack
    rw [hp.objs, hp.fwdGuards, hp.outGrps]
    simp only [ipsi, ifwd, igrp, hps', hgs', hn, hg, hfacts, hgroups, hc1, hc2]
    rw [show fwd + L - (psi + n + 1) = L by omega, show psi + n + 1 = fwd by omega, hc3]
  have glow := lowers_get L p c3 _ _ _ hp.fwdGuards hp.bwdGuards hp.outGrps (by omega)
  rw [ifwd, ibwd, igrp] at glow
  simp only [Nat.add_sub_cancel] at glow
  refine ⟨_, hun, by simp [lower, l3], by rw [hflen, hfl], by rw [hglen, hgl], ?_, ?_, ?_⟩
  · intro x w hw
    have hx := lt_of_get hw
    simp only
    rw [glow]
    by_cases x3 : x = 3
    · subst x3; rw [if_pos rfl, if_neg (by omega), if_neg (by omega), if_neg (by omega), ← hw]; exact hs.fwdGuards.symm
    rw [if_neg x3]
    by_cases x4 : x = 4
    · subst x4; rw [if_pos rfl, if_neg (by omega), if_neg (by omega), if_neg (by omega), ← hw]; exact hs.bwdGuards.symm
    rw [if_neg x4]
    by_cases x5 : x = 5
    · subst x5; rw [if_pos rfl, if_neg (by omega), if_neg (by omega), if_neg (by omega), ← hw]; exact hs.outGrps.symm
    rw [if_neg x5, g3]
    by_cases q1 : x < fwd
    · rw [if_pos q1, g2, if_pos (by omega), g1]
      by_cases q2 : x < psi + 1
      · rw [if_pos q2, if_neg (by omega), if_neg (by omega), if_neg (by omega), hp.front x (by omega) x3 x4 x5]
        exact hw
      · rw [if_neg q2, if_pos q1, if_pos (by omega)]; congr 2
    · rw [if_neg q1, g2, if_neg (show ¬ (psi < x ∧ x ≤ psi + n) by omega)]
      by_cases q2 : grp < x ∧ x ≤ grp + g
      · rw [if_neg (by omega), if_pos (by omega), if_pos q2, Option.map_some]
        congr 1
        unfold unshift; rw [isI_rp, isA_rp]
        simp only [Bool.false_eq_true, if_false]
        congr 1; omega
      · rw [if_neg q2, if_pos (show fwd ≤ x by omega)]
        have : c1[x + L]? = p.code[x + L]? := by rw [g1, if_neg (by omega), if_neg (by omega)]
        by_cases q3 : x + L < grp + L + 1
        · rw [if_pos q3, this, hp.tail x (by omega) q2, hw]; rfl
        · rw [if_neg q3, if_neg (by omega), this, hp.tail x (by omega) q2, hw]; rfl
  · intro i hi
    obtain ⟨s, s1, s2⟩ := hp.entries i hi
    obtain ⟨f, fo, s', f1, f2, f3, f4, f5⟩ := hp.facts i hi
    rw [s1] at f3; cases f3
    obtain ⟨f', fo', k1, k2, k3⟩ := hs.patterns i hi
    rw [f1] at k1; cases k1
    rw [f2] at k2; cases k2
    obtain ⟨nf, n1, n2⟩ := hfget i (ip s) (by rw [List.getElem?_take_of_lt hi, List.getElem?_drop, s2])
    obtain ⟨hd, hd1, _⟩ := k3.head
    have := lt_of_get hd1
    rw [ix_ip (by omega)] at n2
    obtain ⟨nf', m1, m2⟩ := unpackFact_same h fo p k s k3 f5 f4 hsize hrefs hk
    rw [m1] at n2; cases n2
    exact ⟨f, fo, nf, f1, f2, n1, m2⟩
  · intro j hj
    obtain ⟨m, w, r, a1, a2, a3, a4, a5⟩ := hgword j hj
    obtain ⟨y, y1, y2⟩ := hgget j (rp m) a1
    rw [ix_rp a2, a3] at y2; cases y2
    exact ⟨w, r, a4, a5, y1⟩

theorem unshift_shift' (L N : Nat) (w : Word) (hN : N + L ≤ 4096)
    (hi : isIPtr w = true → w = ip (ix w) ∧ ix w < N)
    (ha : isAssign w = true → w = assignmentPointer (asAssignmentIndex w) (BitVec.ofNat 16 (ix w)) ∧ ix w < N) :
    unshift L (shift L w) = w := by
  by_cases h1 : isIPtr w = true
  · exact unshift_shift L w (by have := (hi h1).2; omega) (fun q => (hi q).1) (fun q => (ha q).1)
  by_cases h2 : isAssign w = true
  · exact unshift_shift L w (by have := (ha h2).2; omega) (fun q => (hi q).1) (fun q => (ha q).1)
  unfold shift
  rw [if_neg h1, if_neg h2]
  unfold unshift
  rw [if_neg h1, if_neg h2]

/-! ## Packing succeeds -/

theorem packObjWords_some (off : Nat) (orefs : List Nat) (ws : List Word) (refs : List Nat)
    (hr : ∀ w ∈ ws, isRPtr w = true → ∃ r, orefs[ix w]? = some r) :
    ∃ q, packObjWords off orefs ws refs = some q := by
  induction ws generalizing refs with
  | nil => exact ⟨_, rfl⟩
  | cons w ws ih =>
    have ih' := fun refs => ih refs fun v hv => hr v (List.mem_cons_of_mem _ hv)
    simp only [packObjWords]
    by_cases h1 : isRPtr w = true
    · obtain ⟨r, hr1⟩ := hr w (by simp) h1
      rw [if_pos h1, hr1]
      simp only
      cases refs.idxOf? r with
      | some i => obtain ⟨q, hq⟩ := ih' refs; simp only [hq]; exact ⟨_, rfl⟩
      | none => obtain ⟨q, hq⟩ := ih' (refs ++ [r]); simp only [hq]; exact ⟨_, rfl⟩
    · rw [if_neg h1]
      obtain ⟨q, hq⟩ := ih' refs
      rw [hq]
      split
      · exact ⟨_, rfl⟩
      · exact ⟨_, rfl⟩

theorem packFactWords_some (h : Heap) (frefs : List Nat) (ext : Nat) (ws : List Word) (refs : List Nat)
    (hr : ∀ w ∈ ws, isRPtr w = true → ∃ o, (frefs[ix w]?).bind h = some o ∧ ObjShape o) :
    ∃ q, packFactWords h frefs ext ws refs = some q := by
  induction ws generalizing refs ext with
  | nil => exact ⟨_, rfl⟩
  | cons w ws ih =>
    have ih' := fun e refs => ih e refs fun v hv => hr v (List.mem_cons_of_mem _ hv)
    simp only [packFactWords]
    by_cases h1 : isRPtr w = true
    · obtain ⟨o, hr1, hr2⟩ := hr w (by simp) h1
      rw [if_pos h1, hr1]
      simp only
      obtain ⟨q, hq⟩ := packObjWords_some ext o.refs o.code refs (by
        intro v hv hv'
        obtain ⟨i, hi, rfl⟩ := List.mem_iff_getElem.mp hv
        exact hr2.refs i _ (List.getElem?_eq_getElem hi) hv')
      obtain ⟨a, b⟩ := q
      rw [hq]
      simp only
      obtain ⟨q, hq⟩ := ih' (ext + o.code.length) b
      rw [hq]
      exact ⟨_, rfl⟩
    · rw [if_neg h1]
      obtain ⟨q, hq⟩ := ih' ext refs
      rw [hq]
      exact ⟨_, rfl⟩

theorem packPatterns_some (h : Heap) (start : Nat) (fs : List Nat) (refs : List Nat)
    (hf : ∀ f ∈ fs, ∃ fo, h f = some fo ∧ FactShape h fo) : ∃ q, packPatterns h start fs refs = some q := by
  induction fs generalizing start refs with
  | nil => exact ⟨_, rfl⟩
  | cons f fs ih =>
    obtain ⟨fo, h1, h2⟩ := hf f (by simp)
    simp only [packPatterns, h1]
    obtain ⟨⟨hs, bs, refs1⟩, hq⟩ := packFactWords_some h fo.refs (start + fo.code.length) fo.code refs (by
      intro w hw hr
      obtain ⟨i, hi, rfl⟩ := List.mem_iff_getElem.mp hw
      exact h2.refs i _ (List.getElem?_eq_getElem hi) hr)
    rw [hq]
    simp only
    obtain ⟨⟨st, z, r2⟩, hq⟩ := ih (start + (hs ++ bs).length) refs1 fun f hf' => hf f (List.mem_cons_of_mem _ hf')
    rw [hq]
    exact ⟨_, rfl⟩

/-- A model of the described shape can be packed. -/
theorem C38_packs (h : Heap) (o : Obj) (psi n fwd bwd grp g : Nat) (hs : HlpShape h o psi n fwd bwd grp g)
    (hsz : o.code.length ≤ 4096) : ∃ p, pack h o = some p := by
  obtain ⟨ps, hps, hn⟩ := hs.patternSet
  obtain ⟨gs, hgs, hg, hgi, hga⟩ := hs.groupSet
  have hb := hs.bounds
  have hfe := hs.fwd_eq
  have hpg := hs.psi_ge
  have hgg := hs.grp_ge
  have hbg := hs.bwd_ge
  have ipsi : ix (ip psi) = psi := ix_ip (by omega)
  have ifwd : ix (ip fwd) = fwd := ix_ip (by omega)
  have igrp : ix (ip grp) = grp := ix_ip (by omega)
  unfold pack
  rw [hs.objs, hs.fwdGuards, hs.outGrps]
  simp only [ipsi, ifwd, igrp, hps, hgs, hn, hg]
  rw [if_pos (by omega)]
  obtain ⟨⟨starts, zone, refs⟩, hq⟩ := packPatterns_some h fwd (o.refs.take n) [] (by
    intro f hf
    obtain ⟨i, hi, rfl⟩ := List.mem_iff_getElem.mp hf
    have hi' : i < n := by simp at hi; omega
    obtain ⟨f, fo, a1, a2, a3⟩ := hs.patterns i hi'
    refine ⟨fo, ?_, a3⟩
    rw [List.getElem_take]
    rw [List.getElem?_eq_getElem (by simp at hi; omega)] at a1
    rw [Option.some.inj a1]; exact a2)
  rw [hq]
  simp only
  have hstarts : starts.length ≤ n := by
    have := (packPatterns_spec h _ _ _ _ _ _ hq (List.replicate fwd 0 ++ zone) (by
      intro i w hw
      rw [List.getElem?_append_right (by simp)]; simpa using hw) (by simp)).1
    rw [this]; simp; omega
  obtain ⟨r, hr, _⟩ := mapM_some (fun w => o.refs[ix w]?)
    (((bump zone.length (bump zone.length (bump zone.length ((splice o.code (psi + 1) (starts.map ip)).take fwd ++ zone ++
      ((splice o.code (psi + 1) (starts.map ip)).drop fwd).map (shift zone.length)) 3) 4) 5).drop
        (grp + zone.length + 1)).take g) (by
    intro w hw
    obtain ⟨j, hj, rfl⟩ := List.mem_iff_getElem.mp hw
    have hj' : j < g := by simp at hj; omega
    obtain ⟨w, r, e1, e2, e3⟩ := hs.groups j hj'
    have lsp := splice_length o.code (psi + 1) (starts.map ip) (by simp; omega)
    have hget := List.getElem?_eq_getElem hj
    rw [List.getElem?_take_of_lt hj', List.getElem?_drop] at hget
    unfold bump at hget
    rw [List.getElem?_set_ne (by omega), List.getElem?_set_ne (by omega), List.getElem?_set_ne (by omega),
      insert_get _ _ _ _ (by omega), if_neg (by omega), if_neg (by omega), splice_get _ _ _ (by simp; omega),
      if_neg (by omega), if_neg (by simp; omega), show grp + zone.length + 1 + j - zone.length = grp + 1 + j by omega,
      e1, Option.map_some, shift_R _ e2] at hget
    refine ⟨r, ?_⟩
    rw [← e3]
    unfold bump
    rw [← Option.some.inj hget])
  rw [hr]
  exact ⟨_, rfl⟩

/-! ## C38 -/

/-- The property: unpacking what packing gave, when the sizes fit the pointers (12 bits). -/
def C38_full : Prop :=
  ∀ (h : Heap) (o p : Obj) (psi n fwd bwd grp g : Nat), HlpShape h o psi n fwd bwd grp g →
    pack h o = some p → p.code.length ≤ 4096 → p.refs.length ≤ 4096 →
    ∃ u, unpack p 4097 = some u ∧ SameHlp h o psi n grp g u

/-- Missing: guards with data words that look like pointers. -/
theorem C38_packing_partial (h : Heap) (o p : Obj) (psi n fwd bwd grp g : Nat)
    (hs : HlpShape h o psi n fwd bwd grp g) (hd : Decoded o fwd) (hp : pack h o = some p)
    (hsize : p.code.length ≤ 4096) (hrefs : p.refs.length ≤ 4096) (k : Nat) (hk : 4096 < k) :
    ∃ u, unpack p k = some u ∧ SameHlp h o psi n grp g u := by
  have hsz : o.code.length ≤ 4096 := by
    by_contra hc
    -- the packed model is not shorter: it keeps every word
    have : o.code.length ≤ p.code.length := by
      unfold pack at hp
      split at hp
      · split at hp
        · split at hp
          · split at hp
            · cases hp
            · simp only at hp
              split at hp
              · cases hp
              · simp only [Option.some.injEq] at hp
                rw [← hp]
                simp only [splice, bump, List.length_append, List.length_take, List.length_drop, List.length_map,
                  List.length_set, List.length_range]
                omega
          · cases hp
        · cases hp
      · cases hp
    omega
  obtain ⟨L, starts, hP⟩ := pack_inv h o p psi n fwd bwd grp g hs hsz hp
  obtain ⟨u, u1, u2, u3, u4, u5, u6, u7⟩ := unpack_pack h o p psi n fwd bwd grp g L starts hs hP hsize hrefs k hk
  refine ⟨u, u1, u2, u3, u4, ?_, u6, u7⟩
  intro x w hw
  rw [u5 x w hw]
  by_cases q1 : psi < x ∧ x ≤ psi + n
  · rw [if_pos q1, if_pos q1]
  rw [if_neg q1, if_neg q1]
  by_cases q2 : grp < x ∧ x ≤ grp + g
  · rw [if_pos q2, if_pos q2]
  rw [if_neg q2, if_neg q2]
  by_cases q3 : fwd ≤ x
  · rw [if_pos q3]
    have hl := hP.len
    rw [unshift_shift' L o.code.length w (by omega) (hd x w q3 hw).1 (hd x w q3 hw).2]
  · rw [if_neg q3]

/-- Whatever the guards hold, the patterns and the output groups survive. -/
theorem C38_patterns_survive (h : Heap) (o p : Obj) (psi n fwd bwd grp g : Nat)
    (hs : HlpShape h o psi n fwd bwd grp g) (hp : pack h o = some p) (hsz : o.code.length ≤ 4096)
    (hsize : p.code.length ≤ 4096) (hrefs : p.refs.length ≤ 4096) (k : Nat) (hk : 4096 < k) :
    ∃ u, unpack p k = some u ∧ u.facts.length = n ∧
      (∀ i, i < n → ∃ f fo nf, o.refs[i]? = some f ∧ h f = some fo ∧ u.facts[i]? = some nf ∧ SameFact h fo nf) ∧
      (∀ j, j < g → ∃ w r, o.code[grp + 1 + j]? = some w ∧ o.refs[ix w]? = some r ∧ u.groups[j]? = some r) := by
  obtain ⟨L, starts, hP⟩ := pack_inv h o p psi n fwd bwd grp g hs hsz hp
  obtain ⟨u, u1, _, u3, _, _, u6, u7⟩ := unpack_pack h o p psi n fwd bwd grp g L starts hs hP hsize hrefs k hk
  exact ⟨u, u1, u3, u6, u7⟩

/-- The references of the packed model: those of the contents lead to the object the content referred
to (so different objects stay different), those of the groups likewise. -/
theorem C38_references (h : Heap) (o p : Obj) (psi n fwd bwd grp g : Nat)
    (hs : HlpShape h o psi n fwd bwd grp g) (hp : pack h o = some p) (hsz : o.code.length ≤ 4096) :
    (∀ i, i < n → ∃ f fo s, o.refs[i]? = some f ∧ h f = some fo ∧ p.code[psi + 1 + i]? = some (ip s) ∧
      ∀ (x : Nat) (w : Word), fo.code[x]? = some w → isRPtr w = true →
        ∃ c e, (fo.refs[ix w]?).bind h = some c ∧ p.code[s + x]? = some (ip e) ∧
          ∀ (y : Nat) (v : Word), c.code[y]? = some v → isRPtr v = true →
            ∃ j r, p.code[e + y]? = some (rp j) ∧ j < p.refs.length ∧ p.refs[j]? = some r ∧ c.refs[ix v]? = some r) ∧
    (∃ q, ∀ j, j < g → ∃ k w r, p.code[q + 1 + j]? = some (rp k) ∧ k < p.refs.length ∧ p.refs[k]? = some r ∧
      o.code[grp + 1 + j]? = some w ∧ o.refs[ix w]? = some r) := by
  obtain ⟨L, starts, hP⟩ := pack_inv h o p psi n fwd bwd grp g hs hsz hp
  refine ⟨fun i hi => ?_, grp + L, fun j hj => ?_⟩
  · obtain ⟨s, s1, s2⟩ := hP.entries i hi
    obtain ⟨f, fo, s', f1, f2, f3, f4, f5⟩ := hP.facts i hi
    rw [s1] at f3; cases f3
    refine ⟨f, fo, s, f1, f2, s2, ?_⟩
    intro x w hw hr
    obtain ⟨c, e, c1, c2, c3, c4⟩ := (f5 x w hw).1 hr
    refine ⟨c, e, c1, c2, ?_⟩
    intro y v hv hvr
    obtain ⟨v', v1, v2⟩ := c4 y v hv
    obtain ⟨j, r, j1, j2, j3⟩ := v2.1 hvr
    exact ⟨j, r, by rw [v1, j1], lt_of_get j2, j2, j3⟩
  · obtain ⟨k, w, r, a1, a2, a3⟩ := hP.groups j hj
    exact ⟨k, w, r, a1, lt_of_get a2, a2, a3⟩

/-! ## A concrete model, and the violation -/

/-- Objects 1 and 2: facts on objects 3 and 4; 3 is `(x 7 <structure>)` and refers to 10, 4 refers to
11 and 10; 5 is a group.  The guard is a structure with one more word `raw`. -/
def exHeap : Heap := fun i => match i with
  | 1 => some ⟨[object 8#16 3#8, rp 0, 0x86000001#32, 0x86000002#32], [3], []⟩
  | 2 => some ⟨[object 8#16 3#8, rp 0, 0x86000003#32, 0x86000004#32], [4], []⟩
  | 3 => some ⟨[object 9#16 2#8, rp 0, ip 3, set 1#8, 0x3F800000#32], [10], []⟩
  | 4 => some ⟨[object 9#16 2#8, rp 0, rp 1], [11, 10], []⟩
  | _ => none
def exModel (raw : Word) : Obj :=
  ⟨[object 10#16 6#8, ip 6, ip 7, ip 10, ip 15, ip 16, set 0#8, set 2#8, rp 0, rp 1,
    set 1#8, ip 12, duration, 0#32, raw, set 0#8, set 1#8, rp 2], [1, 2, 5], []⟩

theorem forall_get (l : List Word) (P : Nat → Word → Bool) (h : (l.zipIdx.all fun q => P q.2 q.1) = true)
    (i : Nat) (w : Word) (hw : l[i]? = some w) : P i w = true := by
  rw [List.all_eq_true] at h
  exact h (w, i) (List.mem_zipIdx_iff_getElem?.mpr hw)

/-- `ObjShape`, decidable. -/
def objShapeB (o : Obj) : Bool :=
  (match o.code[0]? with
    | none => false
    | some hd => !isRPtr hd && !isIPtr hd && decide (count hd < o.code.length)) &&
  (o.code.zipIdx.all fun q => !isRPtr q.1 || (o.refs[ix q.1]?).isSome) &&
  (o.code.zipIdx.all fun q => !isIPtr q.1 || (q.1 == ip (ix q.1) && decide (q.2 < ix q.1) &&
    match o.code[ix q.1]? with
    | none => false
    | some hd => !isRPtr hd && !isIPtr hd && decide (ix q.1 + count hd < o.code.length)))

theorem objShape_of (o : Obj) (h : objShapeB o = true) : ObjShape o := by
  unfold objShapeB at h
  simp only [Bool.and_eq_true] at h
  obtain ⟨⟨h1, h2⟩, h3⟩ := h
  refine ⟨?_, ?_, ?_⟩
  · cases hc : o.code[0]? with
    | none => rw [hc] at h1; cases h1
    | some hd =>
      rw [hc] at h1
      simp only [Bool.and_eq_true, Bool.not_eq_true', decide_eq_true_eq] at h1
      exact ⟨hd, rfl, h1.1.1, h1.1.2, h1.2⟩
  · intro q w hw hr
    have := forall_get _ (fun _ w => !isRPtr w || (o.refs[ix w]?).isSome) h2 q w hw
    simp only [hr, Bool.not_true, Bool.false_or] at this
    exact Option.isSome_iff_exists.mp this
  · intro q w hw hi
    have := forall_get _ (fun q w => !isIPtr w || (w == ip (ix w) && decide (q < ix w) &&
      match o.code[ix w]? with
      | none => false
      | some hd => !isRPtr hd && !isIPtr hd && decide (ix w + count hd < o.code.length))) h3 q w hw
    simp only [hi, Bool.not_true, Bool.false_or, Bool.and_eq_true, beq_iff_eq, decide_eq_true_eq] at this
    obtain ⟨⟨a, b⟩, c⟩ := this
    refine ⟨a, b, ?_⟩
    cases hc : o.code[ix w]? with
    | none => rw [hc] at c; cases c
    | some hd =>
      rw [hc] at c
      simp only [Bool.and_eq_true, Bool.not_eq_true', decide_eq_true_eq] at c
      exact ⟨hd, rfl, c.1.1, c.1.2, c.2⟩

/-- `FactShape`, decidable. -/
def factShapeB (h : Heap) (f : Obj) : Bool :=
  (match f.code[0]? with
    | none => false
    | some hd => !isRPtr hd && decide (f.code.length = count hd + 1)) &&
  (f.code.zipIdx.all fun q => !isIPtr q.1) &&
  (f.code.zipIdx.all fun q => !isRPtr q.1 || match (f.refs[ix q.1]?).bind h with
    | none => false
    | some o => objShapeB o)

theorem factShape_of (h : Heap) (f : Obj) (hb : factShapeB h f = true) : FactShape h f := by
  unfold factShapeB at hb
  simp only [Bool.and_eq_true] at hb
  obtain ⟨⟨h1, h2⟩, h3⟩ := hb
  refine ⟨?_, ?_, ?_⟩
  · cases hc : f.code[0]? with
    | none => rw [hc] at h1; cases h1
    | some hd =>
      rw [hc] at h1
      simp only [Bool.and_eq_true, Bool.not_eq_true', decide_eq_true_eq] at h1
      exact ⟨hd, rfl, h1.1, h1.2⟩
  · intro q w hw
    have := forall_get _ (fun _ w => !isIPtr w) h2 q w hw
    simpa using this
  · intro q w hw hr
    have := forall_get _ (fun _ w => !isRPtr w || match (f.refs[ix w]?).bind h with
      | none => false
      | some o => objShapeB o) h3 q w hw
    simp only [hr, Bool.not_true, Bool.false_or] at this
    cases hc : (f.refs[ix w]?).bind h with
    | none => rw [hc] at this; cases this
    | some o => rw [hc] at this; exact ⟨o, rfl, objShape_of o this⟩

theorem ex_shape (raw : Word) : HlpShape exHeap (exModel raw) 7 2 10 15 16 1 := by
  refine ⟨rfl, rfl, rfl, rfl, by omega, by omega, by omega, by omega, ⟨_, rfl, by decide⟩,
    ⟨_, rfl, by decide, by decide, by decide⟩, by simp [exModel], ?_, ?_⟩
  · intro j hj
    obtain rfl : j = 0 := by omega
    exact ⟨rp 2, 5, rfl, by decide, by rw [show ix (rp 2) = 2 by decide]; rfl⟩
  · intro i hi
    have : i = 0 ∨ i = 1 := by omega
    rcases this with rfl | rfl
    · exact ⟨1, _, rfl, rfl, factShape_of _ _ (by decide)⟩
    · exact ⟨2, _, rfl, rfl, factShape_of _ _ (by decide)⟩

/-- The hypotheses of `C38_packing_partial` are met by a model with two patterns sharing an object. -/
theorem C38_packing_nonvacuous : HlpShape exHeap (exModel 0x12345#32) 7 2 10 15 16 1 ∧
    Decoded (exModel 0x12345#32) 10 ∧
    ∃ p, pack exHeap (exModel 0x12345#32) = some p ∧ p.code.length ≤ 4096 ∧ p.refs = [10, 11, 5] := by
  refine ⟨ex_shape _, ?_, ?_⟩
  · intro q w hq hw
    have hl := lt_of_get hw
    have := forall_get _ (fun _ w => (!isIPtr w || (w == ip (ix w) && decide (ix w < (exModel 0x12345#32).code.length))) &&
      (!isAssign w || (w == assignmentPointer (asAssignmentIndex w) (BitVec.ofNat 16 (ix w)) &&
        decide (ix w < (exModel 0x12345#32).code.length)))) (by decide) q w hw
    simp only [Bool.and_eq_true, Bool.or_eq_true, Bool.not_eq_true', beq_iff_eq, decide_eq_true_eq] at this
    refine ⟨fun h => ?_, fun h => ?_⟩
    · rcases this.1 with h' | h'
      · rw [h] at h'; cases h'
      · exact h'
    · rcases this.2 with h' | h'
      · rw [h] at h'; cases h'
      · exact h'
  · obtain ⟨p, hp⟩ := C38_packs _ _ _ _ _ _ _ _ (ex_shape 0x12345#32) (by simp [exModel])
    have : (pack exHeap (exModel 0x12345#32)).map (fun p => (decide (p.code.length ≤ 4096), p.refs)) =
        some (true, [10, 11, 5]) := by decide
    rw [hp] at this
    simp only [Option.map_some, Option.some.injEq, Prod.mk.injEq, decide_eq_true_eq] at this
    exact ⟨p, hp, this.1, this.2⟩

/-- A duration of `0x84001000` microseconds (about 37 minutes) in a guard does not survive: its data
word is taken for a pointer and comes back as another duration. -/
theorem C38_packing_violated : ¬ C38_full ∧
    (((pack exHeap (exModel 0x84001000#32)).bind fun p => unpack p 4097).map fun u => u.code[14]?) =
      some (some 0x84000000#32) := by
  have hw : (((pack exHeap (exModel 0x84001000#32)).bind fun p => unpack p 4097).map fun u => u.code[14]?) =
      some (some 0x84000000#32) := by decide
  refine ⟨fun hf => ?_, hw⟩
  obtain ⟨p, hp⟩ := C38_packs _ _ _ _ _ _ _ _ (ex_shape 0x84001000#32) (by simp [exModel])
  have : (pack exHeap (exModel 0x84001000#32)).map (fun p => (decide (p.code.length ≤ 4096), p.refs)) =
      some (true, [10, 11, 5]) := by decide
  rw [hp] at this
  simp only [Option.map_some, Option.some.injEq, Prod.mk.injEq, decide_eq_true_eq] at this
  obtain ⟨u, hu, hs⟩ := hf _ _ p _ _ _ _ _ _ (ex_shape 0x84001000#32) hp this.1 (by rw [this.2]; decide)
  have := hs.2.2.2.1 14 0x84001000#32 rfl
  rw [hp, Option.bind_some, hu] at hw
  simp only [Option.map_some, Option.some.injEq] at hw
  rw [hw] at this
  revert this
  decide

end Verif.Pack
