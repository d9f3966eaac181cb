import Verif.Compile.Struct

/-! # What a source means is what is read -/
namespace Verif.Compile
open Verif.Macro Verif.Classes Verif.Atom

variable {P : Limits} {L : Lang} {e : Env} {U : Name → Iter → Prop}

theorem sizes_append (a b : List Tree) : sizes (a ++ b) = sizes a + sizes b := by
  induction a with
  | nil => simp [sizes]
  | cons t r ih => simp only [List.cons_append, sizes, ih]; omega

theorem sizes_words (n : Nat) (w : Word) : sizes (List.replicate n (.word w)) = 0 := by
  induction n with
  | zero => rfl
  | succ n ih => simp [List.replicate_succ, sizes, Tree.size, ih]

/-- What a pattern with `::` is made of. -/
def withTail (n : Nat) (kids : List Tree) : List Tree :=
  kids ++ .word tailWildcard :: List.replicate (n - kids.length - 1) (.word (wildcard 0))

theorem withTail_length {n : Nat} {kids : List Tree} (h : kids.length < n) : (withTail n kids).length = n := by
  simp [withTail]; omega

theorem withTail_sizes {n : Nat} {kids : List Tree} : sizes (withTail n kids) = sizes kids := by
  simp [withTail, sizes_append, sizes, Tree.size, sizes_words]

/-- The last member is `::`. -/
theorem exprArgs_tail {s : St} {wi n base last g : Nat} {w : Bool} {c : Class} {m : Member} (A : Agrees L e) (hn : n < arity c)
    (hm : c.members[n]? = some m) (hk : (kindOf L.classes (.mem m)).isSome) (hU : Leaves U (.mem m))
    (hl : s.lvl = lvlAt true last base n) (hlast : last = arity c - 1) (hg : 4 ≤ g) :
    ∃ us, (∀ n i, U n i → s.useAs n = i → us n = i) ∧ exprArgs g e s wi w c true last n [.tail] =
      .yes { wr w s (wi + n) tailWildcard with useAs := us, noArity := false, lvl := base } := by
  obtain ⟨K, hK⟩ := Option.isSome_iff_exists.1 hk
  obtain ⟨us, u, d, hd, hus, -, hread⟩ := pos_kind (U := U) A hK hU { s with lvl := lvlIn true last base n }
  refine ⟨us, hus, ?_⟩
  obtain ⟨g, rfl⟩ : ∃ k, g = k + 1 + 1 := ⟨g - 2, by omega⟩
  have hpos : lvlIn true last base n > 0 := by
    unfold lvlIn lvlAt
    by_cases h0 : n = 0
    · rw [if_pos ⟨rfl, h0⟩]; omega
    · rw [if_neg (by simp [h0]), if_pos ⟨rfl, by omega, by omega⟩]; omega
  have h1 : readMember (g + 1) e { s with lvl := lvlIn true last base n } (wi + n) w m .tail =
      .yes (wr w { s with lvl := lvlIn true last base n, useAs := us, noArity := true } (wi + n) tailWildcard) := by
    have := hread (g + 1 - d) (wi + n) w .tail
    rw [Nat.sub_add_cancel (by omega)] at this
    refine this.trans ?_
    obtain ⟨j, hj⟩ : ∃ j, g + 1 - d = j + 2 := ⟨g + 1 - d - 2, by omega⟩
    rw [hj]
    refine readK_first (fun t op => .inr ⟨rfl, fun t => .inr ⟨rfl, ?_⟩⟩) (by simp) (by simp) j u K
    simp only [readWild, hpos, if_true]
  rw [← lvl_in (pat := true) hl] at h1
  rw [exprArgs_cons hn hm h1]
  have hlv : (wr w { s with lvl := lvlIn true last base n, useAs := us, noArity := true } (wi + n) tailWildcard).lvl = lvlIn true last base n := by
    cases w <;> rfl
  rw [lvl_out hlv]
  have hfin : (if last > 0 ∧ n + 1 < last + 1 then lvlAt true last base (n + 1) - 1 else lvlAt true last base (n + 1)) = base := by
    unfold lvlAt
    by_cases h : n < last
    · rw [if_pos ⟨by omega, by omega⟩, if_pos ⟨rfl, by omega, by omega⟩]; omega
    · rw [if_neg (by omega), if_neg (by omega)]
  cases w
  · simp only [exprArgs, wr, Bool.false_eq_true, if_false, if_true, true_and, Out.yes.injEq]
    rw [hfin]
  · simp only [exprArgs, wr, if_true, true_and, Out.yes.injEq]
    rw [hfin]

/-- Some members and `::`. -/
theorem exprTail_some {f0 : Nat} {w : Bool} {D D' : List Name} {kids : List Tree} {c : Class} {args : List Syn} {s : St} {wi : Nat}
    (A : Agrees L e) (h : Steps L e U f0 w ((c.members.map Pos.mem).zip args) D kids D') (hc : c.members.length = arity c)
    (hn : args.length < arity c) (hm : ∀ m, c.members[args.length]? = some m → (kindOf L.classes (.mem m)).isSome)
    (hU : ∀ m, c.members[args.length]? = some m → Leaves U (.mem m)) (hp : L.pat = true)
    (hL : LvlOk L e s.lvl) (hI : Inv L s) (hD : ∀ y ∈ D, y ∈ s.hlp)
    (hr : w = true → wi + arity c ≤ s.ext ∧ s.ext + sizes kids ≤ 4096) (F : Nat) (hF : f0 + arity c + 6 ≤ F) :
    ∃ s', exprTail F e s wi w c (args ++ [.tail]) = .yes s' ∧ DidAll L U w s s' wi (withTail (arity c) kids) D' ∧ s'.lvl = s.lvl := by
  have hkl : kids.length = args.length := by rw [h.length]; simp [hc]; omega
  have hh := A.pat hp
  have hlv : s.lvl > 0 := by
    rcases hL with h | h
    · exact h
    · rw [hp] at h; exact absurd h.1 (by simp)
  have hlt : args.length < c.members.length := by omega
  have hmem := List.getElem?_eq_getElem hlt
  obtain ⟨G, rfl⟩ : ∃ G, F = (G + args.length) + 1 := ⟨F - args.length - 1, by omega⟩
  have key : ∀ s0 : St, Inv L s0 → s0.lvl = s.lvl → (∀ y ∈ D, y ∈ s0.hlp) → s0.ext = s.ext →
      ∃ s1 us, exprArgs (G + args.length) e s0 wi w c true (arity c - 1) 0 (args ++ [.tail]) =
          .yes { wr w s1 (wi + args.length) tailWildcard with useAs := us, noArity := false, lvl := s.lvl } ∧
        (∀ n i, U n i → s1.useAs n = i → us n = i) ∧ DidAll L U w s0 s1 wi kids D' := by
    intro s0 hI0 hl0 hD0 he0
    obtain ⟨s1, h1, h2, h3⟩ := exprArgs_run (rest := [.tail]) (pat := true) (last := arity c - 1) (base := s.lvl) h (fun n hn => by
      have := lvl_args (L := L) (base := s.lvl) (c := c) (.inl hh) n hn
      simpa [hh, show arity c ≠ 0 by omega] using this) hc args s0 wi 0 G (by omega) rfl
      (by omega) hI0 (by rw [hl0]; simp [lvlAt]) hD0 (by
        rw [he0]; intro hw; have := hr hw; exact ⟨by omega, by omega⟩)
    simp only [Nat.zero_add, Nat.add_zero] at h1 h2 h3
    obtain ⟨us, hus, h4⟩ := exprArgs_tail (U := U) (s := s1) (wi := wi) (w := w) (g := G) A hn hmem (hm _ hmem) (hU _ hmem) h3 rfl (by omega)
    exact ⟨s1, us, by rw [h1, h4], hus, h2⟩
  have hlast : (if arity c = 0 then 65535 else arity c - 1) = arity c - 1 := if_neg (by omega)
  rw [exprTail]
  simp only [hh, Bool.true_or, if_true, hlast]
  cases w with
  | false =>
    simp only [Bool.false_eq_true, false_and, if_false]
    obtain ⟨s1, us, h1, h2, h3⟩ := key s hI rfl hD rfl
    have hi := h3.idle rfl
    refine ⟨_, h1, ⟨⟨⟨h3.same.inv.nodup, h3.same.inv.names, h3.same.inv.rnodup, h3.same.inv.objs, h3.same.inv.locals, rfl⟩,
      h3.same.dom, h3.same.hlp, h3.same.refs, fun n i hi hn => h2 n i hi (h3.same.use n i hi hn)⟩, by simp, fun _ => hi⟩, rfl⟩
  | true =>
    have hr := hr rfl
    rw [if_pos (by simpa using hlv)]
    obtain ⟨s1, us, h1, h2, h3⟩ := key (fill s wi (arity c)) (by rw [fill_eq]; exact ⟨hI.nodup, hI.names, hI.rnodup, hI.objs, hI.locals, hI.noArity⟩)
      (by rw [fill_eq]) (by rw [fill_eq]; exact hD) (by rw [fill_eq])
    obtain ⟨a1, a2, a3⟩ := h3.wrote rfl
    rw [fill_eq] at h3 a1 a2 a3
    simp only at a1 a2 a3
    refine ⟨_, h1, ⟨⟨⟨h3.same.inv.nodup, h3.same.inv.names, h3.same.inv.rnodup, h3.same.inv.objs, h3.same.inv.locals, rfl⟩,
      h3.same.dom, h3.same.hlp, h3.same.refs, fun n i hi hn => h2 n i hi (h3.same.use n i hi hn)⟩, fun _ => ⟨?_, ?_, ?_⟩, by simp⟩, rfl⟩
    · simp only [wr, if_true, withTail_sizes, a1]
    · intro i a hi hne ha
      rw [withTail_length (by omega)] at hne
      simp only [wr, if_true]
      exact put_keep (by omega) (a2 i a hi (by omega) (putAll_keep (by simp; omega) ha))
    · intro k t hk
      simp only [wr, if_true]
      have hkn : k < arity c := by
        have := (List.getElem?_eq_some_iff.1 hk).1
        rwa [withTail_length (by omega)] at this
      by_cases hlt : k < kids.length
      · rw [withTail, List.getElem?_append_left hlt] at hk
        refine (a3 k t hk).mono ?_ List.prefix_rfl List.prefix_rfl (Nat.le_refl _) (Nat.le_refl _)
        intro j a hj ha
        exact put_keep (by omega) ha
      · rw [withTail, List.getElem?_append_right (by omega)] at hk
        obtain ⟨j, rfl⟩ : ∃ j, k = kids.length + j := ⟨k - kids.length, by omega⟩
        rw [Nat.add_sub_cancel_left] at hk
        cases j with
        | zero =>
          simp only [List.getElem?_cons_zero, Option.some.injEq] at hk; subst hk
          refine .word ?_
          rw [Nat.add_zero, hkl]
          exact Words.put_get_self _ _ _
        | succ j =>
          simp only [List.getElem?_cons_succ] at hk
          have ht : t = .word (wildcard 0) := by
            have := List.mem_of_getElem? hk
            exact List.eq_of_mem_replicate this
          subst ht
          refine .word (put_keep (by omega) (a2 _ _ (by omega) (by omega) ?_))
          exact putAll_get (by rw [List.getElem?_replicate]; exact if_pos (by omega))

/-- The body of an expression, once its members are read. -/
theorem exprBody_step {w : Bool} {D D' : List Name} {kids : List Tree} {c : Class} {l : Option Name} {args : List Syn} {F : Nat}
    (A : Agrees L e) (hlen : kids.length = arity c) (hl : ∀ v, l = some v → L.inHlp = true ∧ v ∈ D)
    (hT : ∀ (s : St) wi, Inv L s → LvlOk L e s.lvl → (∀ y ∈ D, y ∈ s.hlp) →
      (w = true → wi + arity c ≤ s.ext ∧ s.ext + sizes kids ≤ 4096) →
      ∃ s', exprTail F e s wi w c args = .yes s' ∧ DidAll L U w s s' wi kids D' ∧ s'.lvl = s.lvl)
    {s : St} {wi : Nat} (hI : Inv L s) (hL : LvlOk L e s.lvl) (hD : ∀ y ∈ D, y ∈ s.hlp)
    (hr : w = true → Room s wi (.node l c.atom kids)) :
    ∃ s', exprBody (F + 1) e s wi w c l args = .yes s' ∧ Did L U w s s' wi (.node l c.atom kids) D' := by
  cases w with
  | false =>
    obtain ⟨s', h1, h2, h3⟩ := hT s 0 hI hL hD (by simp)
    exact ⟨s', by simp only [exprBody, Bool.false_eq_true, if_false]; exact h1, h2.same, h3, by simp, fun _ => h2.idle rfl⟩
  | true =>
    have hr := hr rfl
    have key : ∀ ptr : Word, ((l = none ∧ ptr = iPointer (BitVec.ofNat 16 s.ext)) ∨ (∃ x v, l = some x ∧ v < 255 ∧ s.hlp[v]? = some x ∧
        ptr = assignmentPointer (BitVec.ofNat 8 v) (BitVec.ofNat 16 s.ext))) →
        ∃ s', exprTail F e { app { s with code := Words.put s.code wi ptr } [c.atom] with
            ext := (app { s with code := Words.put s.code wi ptr } [c.atom]).ext + arity c } (s.ext + 1) true c args = .yes s' ∧
          Did L U true s s' wi (.node l c.atom kids) D' := by
      intro ptr hp
      have hr' := hr
      simp only [Room, Tree.size] at hr'
      simp only [app]
      have hI' : Inv L { s with code := Words.put (Words.put s.code wi ptr) s.ext c.atom, ext := s.ext + 1 + arity c } :=
        ⟨hI.nodup, hI.names, hI.rnodup, hI.objs, hI.locals, hI.noArity⟩
      obtain ⟨s', h1, h2, h3⟩ := hT { s with code := Words.put (Words.put s.code wi ptr) s.ext c.atom, ext := s.ext + 1 + arity c }
        (s.ext + 1) hI' hL hD (fun _ => ⟨Nat.le_refl _, by simp only; omega⟩)
      exact ⟨s', h1, did_node (D0 := D) ⟨hI', hD, List.prefix_rfl, List.prefix_rfl, fun _ _ _ h => h⟩ rfl (by simp only; omega) h2 h3
        (by rw [hlen]; rfl) hr hp⟩
    cases l with
    | none =>
      obtain ⟨s', h1, h2⟩ := key _ (.inl ⟨rfl, rfl⟩)
      exact ⟨s', by simp only [exprBody, if_true]; exact h1, h2⟩
    | some v =>
      have hv := hl v rfl
      have hm := hD v hv.2
      have hi := List.idxOf_lt_length_of_mem hm
      have := hI.hlp_lt A
      obtain ⟨s', h1, h2⟩ := key _ (.inr ⟨v, s.hlp.idxOf v, rfl, by omega, idxOf_get hm, rfl⟩)
      refine ⟨s', ?_, h2⟩
      simp only [exprBody, if_true, A.inHlp, hv.1, hi, show s.hlp.idxOf v < 255 by omega, and_self]
      exact h1

/-! ## Sets -/

theorem count_set (x : BitVec 8) : getAtomCount (Atom.set x) = x := by
  revert x; decide +kernel

theorem count_set_nat {n : Nat} (h : n < 256) : (getAtomCount (Atom.set (BitVec.ofNat 8 n))).toNat = n := by
  rw [count_set, BitVec.toNat_ofNat]; omega

/-- A set of anything. -/
theorem setU_step {items : List (Pos × Syn)} {f0 : Nat} {w : Bool} {D D' : List Name} {kids : List Tree} {F : Nat} {a : Word}
    (h : Steps L e U f0 w items D kids D') (hc : w = true → Steps L e U f0 false items D kids D')
    (hp : ∀ p ∈ items, Relax w p.1 .any) (hn : 0 < items.length) (hlt : w = true → items.length < 256)
    (ha : w = true → a = Atom.set (BitVec.ofNat 8 items.length))
    (hF : f0 + items.length + 2 ≤ F) {s : St} {wi : Nat} (hI : Inv L s) (hL : LvlOk L e s.lvl) (hD : ∀ y ∈ D, y ∈ s.hlp)
    (hr : w = true → Room s wi (.node none a kids)) :
    ∃ s', setU F e s wi w (.set none (items.map (·.2))) = .yes s' ∧ Did L U w s s' wi (.node none a kids) D' := by
  obtain ⟨G, rfl⟩ : ∃ G, F = (G + items.length + 1) + 1 := ⟨F - items.length - 2, by omega⟩
  cases w with
  | false =>
    obtain ⟨s', h1, h2, h3⟩ := anyElems_run h hp s 0 0 G (by omega) hI hL hD (by simp) (by omega)
    exact ⟨s', by simp only [setU, Bool.false_eq_true, if_false]; exact h1, h2.same, h3, by simp, fun _ => h2.idle rfl⟩
  | true =>
    have hr := hr rfl
    have hlt := hlt rfl
    obtain rfl := ha rfl
    have hkl := h.length
    have hI0 : Inv L { s with code := Words.put s.code wi (iPointer (BitVec.ofNat 16 s.ext)) } :=
      ⟨hI.nodup, hI.names, hI.rnodup, hI.objs, hI.locals, hI.noArity⟩
    obtain ⟨sc, c1, c2, c3, c4⟩ := setCount_run (hc rfl) { s with code := Words.put s.code wi (iPointer (BitVec.ofNat 16 s.ext)) } G (by omega) hI0 hL hD
    have hs2 : Same L U s { sc with code := Words.put (Words.put s.code wi (iPointer (BitVec.ofNat 16 s.ext))) s.ext (Atom.set (BitVec.ofNat 8 items.length)), ext := s.ext + 1 + items.length, lvl := s.lvl, noArity := s.noArity } D :=
      ⟨⟨c2.inv.nodup, c2.inv.names, c2.inv.rnodup, c2.inv.objs, c2.inv.locals, hI.noArity⟩,
        fun x hx => c2.hlp.subset (hD x hx), c2.hlp, c2.refs, c2.use⟩
    have hr' := hr
    simp only [Room, Tree.size] at hr'
    obtain ⟨s', h1, h2, h3⟩ := anyElems_run h hp _ (s.ext + 1) 0 G (by omega) hs2.inv hL hs2.dom (fun _ => ⟨by simp only; omega, by simp only; omega⟩) (by omega)
    refine ⟨s', ?_, did_node (D0 := D) hs2 rfl (by simp only; omega) (by simpa using h2) h3 (by rw [count_set_nat hlt, hkl]) hr (.inl ⟨rfl, rfl⟩)⟩
    simp only [setU, if_true, c1, app, restore, c3, c4, Nat.mod_eq_of_lt hlt]
    exact h1

/-- Where element `n` stands in a set of a class. -/
def posAt (c : Class) (i : Iter) (n : Nat) : Option Pos :=
  match i with
  | .expression => some (.ex c)
  | .set => some (.se c)
  | .cls => (c.members[n]?).map Pos.mem
  | .dcls => none

theorem clsElems_cons {f : Nat} {s s1 : St} {wi n ar : Nat} {w : Bool} {c : Class} {u : Use} {i : Iter} {p : Pos} {x : Syn} {r : List Syn}
    (hu : useOf s u = i) (hp : posAt c i n = some p) (hn : n < ar) (h : readPos f e s (wi + n) w p x = .yes s1) :
    clsElems (f + 1) e s wi w c u ar n (x :: r) = clsElems f e s1 wi w c u ar (n + 1) r := by
  simp only [clsElems, show ¬ n ≥ ar by omega, if_false, hu]
  cases i with
  | expression => cases hp; simp only [readPos] at h; simp only [h]
  | set => cases hp; simp only [readPos] at h; simp only [h]
  | cls =>
    simp only [posAt, Option.map_eq_some_iff] at hp
    obtain ⟨m, hm, rfl⟩ := hp
    simp only [readPos] at h
    simp only [hm, h]
  | dcls => cases hp

theorem clsElems_run {items : List (Pos × Syn)} {f0 : Nat} {w : Bool} {D D' : List Name} {ts : List Tree} {c : Class} {i : Iter}
    {u : Use} {ar : Nat} (h : Steps L e U f0 w items D ts D') :
    ∀ (s : St) (wi n f : Nat), f0 ≤ f → (∀ k p, items[k]? = some p → posAt c i (n + k) = some p.1) →
      n + items.length ≤ ar → (ar = 0xFFFF ∨ ar = n + items.length) → 0 < n + items.length → Uses U s i u →
      Inv L s → LvlOk L e s.lvl → (∀ y ∈ D, y ∈ s.hlp) →
      (w = true → wi + n + ts.length ≤ s.ext ∧ s.ext + sizes ts ≤ 4096) →
      ∃ s', clsElems (f + items.length + 1) e s wi w c u ar n (items.map (·.2)) = .yes s' ∧ DidAll L U w s s' (wi + n) ts D' ∧
        s'.lvl = s.lvl := by
  induction h with
  | nil =>
    intro s wi n f hf hp hn har hpos hu hI hL hD hr
    refine ⟨s, ?_, didAll_nil hI hD, rfl⟩
    have h0 : n ≠ 0 := by simpa using Nat.pos_iff_ne_zero.1 (by simpa using hpos)
    have h1 : n = ar ∨ ar = 65535 := by
      rcases har with h | h
      · exact .inr h
      · exact .inl (by simpa using h.symm)
    simp [clsElems, h0, h1]
  | @cons p x r D t D1 ts D2 h hr ih =>
    intro s wi n f hf hp hn har hpos hu hI hL hD hroom
    simp only [List.length_cons] at hn har hpos
    obtain ⟨s1, h1, h2⟩ := h (f + r.length + 1) (by omega) p (.inl rfl) s (wi + n) hI hL hD (fun hw => by
      have := hroom hw
      simp only [List.length_cons, sizes] at this
      exact ⟨by omega, by omega⟩)
    obtain ⟨s', h3, h4, h5⟩ := ih s1 wi (n + 1) f hf (fun k q hq => by
      have := hp (k + 1) q (by simpa using hq)
      rwa [show n + 1 + k = n + (k + 1) by omega]) (by omega) (by omega) (by omega) (hu.same h2.same) h2.same.inv (h2.lvl ▸ hL) h2.same.dom
      (fun hw => by
      have := hroom hw
      have h6 := (h2.wrote hw).ext
      simp only [List.length_cons, sizes] at this
      exact ⟨by omega, by omega⟩)
    refine ⟨s', ?_, didAll_cons (n := s.lvl) (m := s1.lvl) h2 (by rwa [← Nat.add_assoc] at h4) (fun hw => ?_), h5.trans h2.lvl⟩
    · rw [show f + ((p, x) :: r).length + 1 = (f + r.length + 1) + 1 by simp; omega, List.map_cons,
        clsElems_cons hu.of (by simpa using hp 0 (p, x) rfl) (by omega) h1]
      exact h3
    · have := hroom hw
      simp only [List.length_cons] at this
      omega

/-- The elements of a set of a class. -/
theorem setElems_run {items : List (Pos × Syn)} {f0 : Nat} {w : Bool} {D D' : List Name} {ts : List Tree} {c : Class} {i : Iter}
    {u : Use} (h : Steps L e U f0 w items D ts D') (hp : ∀ k p, items[k]? = some p → posAt c i k = some p.1)
    (hn : 0 < items.length ∧ items.length < 256) (hi : i = .cls → items.length = arity c) (F : Nat) (hF : f0 + items.length + 2 ≤ F)
    {s : St} {wi : Nat} (hu : Uses U s i u) (hI : Inv L s) (hL : LvlOk L e s.lvl) (hD : ∀ y ∈ D, y ∈ s.hlp)
    (hr : w = true → wi + ts.length ≤ s.ext ∧ s.ext + sizes ts ≤ 4096) :
    ∃ s', setElems F e s wi w c u (items.map (·.2)) = .yes s' ∧ DidAll L U w s s' wi ts D' ∧ s'.lvl = s.lvl := by
  obtain ⟨G, rfl⟩ : ∃ G, F = (G + items.length + 1) + 1 := ⟨F - items.length - 2, by omega⟩
  have hkl := h.length
  by_cases hc : i = .cls
  · subst hc
    have ha := hi rfl
    simp only [setElems, hu.of, if_true]
    cases w with
    | false =>
      exact clsElems_run (i := .cls) h s wi 0 G (by omega) (by simpa using hp) (by omega) (by omega) (by omega) hu hI hL hD (by simp)
    | true =>
      have hr := hr rfl
      simp only [if_true]
      have hI' : Inv L (fill s wi (arity c)) := by rw [fill_eq]; exact ⟨hI.nodup, hI.names, hI.rnodup, hI.objs, hI.locals, hI.noArity⟩
      have hu' : Uses U (fill s wi (arity c)) .cls u := by rw [fill_eq]; cases u <;> exact hu
      obtain ⟨s', h1, h2, h3⟩ := clsElems_run (i := .cls) (c := c) (ar := arity c) h (fill s wi (arity c)) wi 0 G (by omega) (by simpa using hp) (by omega) (by omega) (by omega)
        hu' hI' (by rw [fill_eq]; exact hL) (by rw [fill_eq]; exact hD) (by rw [fill_eq]; exact fun _ => hr)
      exact ⟨s', h1, didAll_fill h2 (by omega), by rw [h3, fill_eq]⟩
  · simp only [setElems, hu.of, hc, if_false]
    exact clsElems_run (i := i) h s wi 0 G (by omega) (by simpa using hp) (by omega) (.inl rfl) (by omega) hu hI hL hD hr

/-- A set of a class. -/
theorem setC_step {items : List (Pos × Syn)} {f0 : Nat} {w : Bool} {D D' : List Name} {kids : List Tree} {c : Class} {i : Iter}
    {u : Use} {F : Nat} {a : Word}
    (h : Steps L e U f0 w items D kids D') (hc : w = true → Steps L e U f0 false items D kids D')
    (hp : ∀ k p, items[k]? = some p → posAt c i k = some p.1)
    (hn : 0 < items.length ∧ items.length < 256)
    (hi : (i = .cls ∧ items.length = arity c ∧ getDescriptor c.atom = 0xC2 ∧ a = c.atom) ∨
      ((i = .set ∨ (i = .expression ∧ getDescriptor c.atom ≠ 0xC2)) ∧ a = Atom.set (BitVec.ofNat 8 items.length)))
    (hF : f0 + items.length + 3 ≤ F) {s : St} {wi : Nat} (hu : Uses U s i u) (hI : Inv L s) (hL : LvlOk L e s.lvl)
    (hD : ∀ y ∈ D, y ∈ s.hlp) (hr : w = true → Room s wi (.node none a kids)) :
    ∃ s', setC F e s wi w c u (.set none (items.map (·.2))) = .yes s' ∧ Did L U w s s' wi (.node none a kids) D' := by
  obtain ⟨G, rfl⟩ : ∃ G, F = G + 1 := ⟨F - 1, by omega⟩
  have hcls : i = .cls → items.length = arity c := by
    intro hi'
    rcases hi with h | ⟨h | h, -⟩
    · exact h.2.1
    · rw [h] at hi'; cases hi'
    · rw [h.1] at hi'; cases hi'
  cases w with
  | false =>
    obtain ⟨s', h1, h2, h3⟩ := setElems_run h hp hn hcls G (by omega) (wi := 0) hu hI hL hD (by simp)
    exact ⟨s', by simp only [setC, Bool.false_eq_true, if_false]; exact h1, h2.same, h3, by simp, fun _ => h2.idle rfl⟩
  | true =>
    have hr := hr rfl
    have hkl := h.length
    have hr' := hr
    simp only [Room, Tree.size] at hr'
    have hI0 : Inv L { s with code := Words.put s.code wi (iPointer (BitVec.ofNat 16 s.ext)) } :=
      ⟨hI.nodup, hI.names, hI.rnodup, hI.objs, hI.locals, hI.noArity⟩
    rcases hi with ⟨rfl, hl, hd, rfl⟩ | ⟨hi, rfl⟩
    · have hs2 : Same L U s { s with code := Words.put (Words.put s.code wi (iPointer (BitVec.ofNat 16 s.ext))) s.ext c.atom, ext := s.ext + 1 + arity c } D :=
        ⟨⟨hI.nodup, hI.names, hI.rnodup, hI.objs, hI.locals, hI.noArity⟩, hD, List.prefix_rfl, List.prefix_rfl, fun _ _ _ h => h⟩
      obtain ⟨s', h1, h2, h3⟩ := setElems_run h hp hn hcls G (by omega) (wi := s.ext + 1) (hu.same hs2) hs2.inv hL hs2.dom
        (fun _ => ⟨by simp only; omega, by simp only; omega⟩)
      refine ⟨s', ?_, did_node (D0 := D) hs2 rfl (by simp only; omega) h2 h3 (by rw [hkl, hl]; rfl) hr (.inl ⟨rfl, rfl⟩)⟩
      simp only [setC, if_true, hd, hu.of, ne_eq, reduceCtorEq, not_false_eq_true, and_self, app]
      exact h1
    · obtain ⟨sc, c1, c2, c3, c4⟩ := setCount_run (hc rfl) { s with code := Words.put s.code wi (iPointer (BitVec.ofNat 16 s.ext)) }
        (G - items.length - 1) (by omega) hI0 hL hD
      rw [show G - items.length - 1 + items.length + 1 = G by omega] at c1
      have hs2 : Same L U s { sc with code := Words.put (Words.put s.code wi (iPointer (BitVec.ofNat 16 s.ext))) s.ext (Atom.set (BitVec.ofNat 8 items.length)), ext := s.ext + 1 + items.length, lvl := s.lvl, noArity := s.noArity } D :=
        ⟨⟨c2.inv.nodup, c2.inv.names, c2.inv.rnodup, c2.inv.objs, c2.inv.locals, hI.noArity⟩,
          fun x hx => c2.hlp.subset (hD x hx), c2.hlp, c2.refs, c2.use⟩
      obtain ⟨s', h1, h2, h3⟩ := setElems_run h hp hn hcls G (by omega) (wi := s.ext + 1) (hu.same hs2) hs2.inv hL hs2.dom
        (fun _ => ⟨by simp only; omega, by simp only; omega⟩)
      refine ⟨s', ?_, did_node (D0 := D) hs2 rfl (by simp only; omega) h2 h3 (by rw [count_set_nat hn.2, hkl]) hr (.inl ⟨rfl, rfl⟩)⟩
      have hb : ¬ (getDescriptor c.atom = 0xC2 ∧ useOf s u ≠ .set) := by
        rw [hu.of]
        rintro ⟨h1, h2⟩
        rcases hi with h | h
        · exact h2 h
        · exact h.2 h1
      simp only [setC, if_true, if_neg hb, c1, app, restore, c3, c4, Nat.mod_eq_of_lt hn.2]
      exact h1

end Verif.Compile
