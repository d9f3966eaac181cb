import Verif.Decomp.Main

/-! # Objects, views and sources are written as they were meant -/
namespace Verif.Decomp
open Verif.Macro Verif.Classes Verif.Atom Verif.Compile

variable {T : Meta} {code : List Word} {H : List Name} {R : List Nat} {ρ : Name → Name} {L L' : Lang} {P : Limits}

/-! ## Models and composite states -/

theorem means_split {p : Pos} {x : Syn} {r : List (Pos × Syn)} {D D2 : List Name} {ts : List Tree} (h : Means P L ((p, x) :: r) D ts D2) :
    ∃ t ts' D1, ts = t :: ts' ∧ Means P L [(p, x)] D [t] D1 ∧ Means P L r D1 ts' D2 := by
  cases h with
  | leaf hk h hr => exact ⟨_, _, _, rfl, .leaf hk h .nil, hr⟩
  | expr hk hc ho hl hn ha hr => exact ⟨_, _, _, rfl, .expr hk hc ho hl hn ha .nil, hr⟩
  | exprTail hk hc ho hl hn hp hm ha hr => exact ⟨_, _, _, rfl, .exprTail hk hc ho hl hn hp hm ha .nil, hr⟩
  | setU hk ho hn ha hr => exact ⟨_, _, _, rfl, .setU hk ho hn ha .nil, hr⟩
  | setT hk hd hm hn hne hu ha hr => exact ⟨_, _, _, rfl, .setT hk hd hm hn hne hu ha .nil, hr⟩
  | setE hk hd hn hu ha hr => exact ⟨_, _, _, rfl, .setE hk hd hn hu ha .nil, hr⟩
  | setS hk hn hu ha hr => exact ⟨_, _, _, rfl, .setS hk hn hu ha .nil, hr⟩

theorem means_join {p : Pos} {x : Syn} {r : List (Pos × Syn)} {D D1 D2 : List Name} {t : Tree} {ts : List Tree}
    (h : Means P L [(p, x)] D [t] D1) (hr : Means P L r D1 ts D2) : Means P L ((p, x) :: r) D (t :: ts) D2 := by
  cases h with
  | leaf hk h hn => cases hn; exact .leaf hk h hr
  | expr hk hc ho hl hn ha hr' => cases hr'; exact .expr hk hc ho hl hn ha hr
  | exprTail hk hc ho hl hn hp hm ha hr' => cases hr'; exact .exprTail hk hc ho hl hn hp hm ha hr
  | setU hk ho hn ha hr' => cases hr'; exact .setU hk ho hn ha hr
  | setT hk hd hm hn hne hu ha hr' => cases hr'; exact .setT hk hd hm hn hne hu ha hr
  | setE hk hd hn hu ha hr' => cases hr'; exact .setE hk hd hn hu ha hr
  | setS hk hn hu ha hr' => cases hr'; exact .setS hk hn hu ha hr

theorem means_not_tail {p : Pos} {r : List (Pos × Syn)} {D D2 : List Name} {ts : List Tree} : ¬ Means P L ((p, .tail) :: r) D ts D2 := by
  intro h
  cases h with
  | leaf hk h hr => cases h

/-- Only `::` is taken for `::`. -/
theorem any_tailed {f : Nat} {fl fl1 : Fl} {i wvi : Nat} {close : Bool} {xs : List Syn}
    (h : writeAny f T code R fl i close false wvi = some (xs, fl1, true)) : xs = [.tail] := by
  cases f with
  | zero => simp [writeAny] at h
  | succ f =>
    rw [writeAny] at h
    simp only [Bool.false_eq_true, if_false] at h
    split at h
    · simp at h
    split at h
    · split at h <;> simp at h
    split at h
    · split at h <;> simp at h
    split at h
    · simp at h
    · rw [Option.map_eq_some_iff] at h
      obtain ⟨x, hx, he⟩ := h
      simp only [Prod.mk.injEq, decide_eq_true_eq] at he
      obtain ⟨rfl, -, hd⟩ := he
      simp only [atomSyn, hd] at hx
      simp at hx
      rw [hx]

/-- A single element. -/
theorem one_written {fl : Fl} {i wvi : Nat} {x : Syn} (hx : x ≠ .tail) (h : Writes T code R fl i 1 false false wvi [x]) :
    ∃ m fl', fl'.post = fl.post ∧ fl'.inHlp = fl.inHlp ∧ ∀ f ≥ m, writeAny f T code R fl i false false wvi = some ([x], fl', false) := by
  obtain ⟨m, fl', h1, h2, h3⟩ := h
  refine ⟨m + 1, fl', h1, h2, fun f hf => ?_⟩
  have h4 := h3 (f + 1) (by omega)
  obtain ⟨f, rfl⟩ : ∃ g, f = g + 1 := ⟨f - 1, by omega⟩
  rw [writeElems] at h4
  simp only [Bool.false_and] at h4
  split at h4
  · simp at h4
  · rename_i xs fl1 tl he
    simp only [writeElems, Option.map_some, List.append_nil, Option.some.injEq, Prod.mk.injEq] at h4
    obtain ⟨rfl, rfl⟩ := h4
    cases tl with
    | false => exact he
    | true => simpa [hx] using any_tailed he

/-- The members of a model or of a composite state. -/
theorem hlp_shown (hT : T.ref = 0) (C : Corr T ρ L L') (hN : Numbered H ρ) (hP : P.close false) {D2 : List Name} :
    ∀ {l : List (Pos × Syn)} {D : List Name} {ts : List Tree} {i k : Nat} {fl : Fl} {E : List Name}, Means P L l D ts D2 →
    (∀ (n : Nat) t, ts[n]? = some t → Reads code H R (i + n) t) → plainHlp T (ctx L) k (l.map (·.2)) →
    Known L D → Under ρ D E → fl.post = true → fl.inHlp = true →
    ∃ l' E2 m fl', (∀ f ≥ m, writeHlp f T code R fl i k ts.length false = some (l'.map (·.2), fl')) ∧
      (fl'.post = true ∧ fl'.inHlp = true) ∧ Means P L' l' E (rens ρ ts) E2 ∧ (Known L D2 ∧ Under ρ D2 E2) ∧ List.Forall₂ (Like L) l l'
  | [], D, ts, i, k, fl, E, h, _, _, hD, hE, h1, h2 => by
    cases h
    refine ⟨[], E, 1, fl, fun f hf => ?_, ⟨h1, h2⟩, .nil, ⟨hD, hE⟩, .nil⟩
    obtain ⟨f, rfl⟩ : ∃ g, f = g + 1 := ⟨f - 1, by omega⟩
    rfl
  | (p, x) :: l, D, ts, i, k, fl, E, h, hr, hp, hD, hE, h1, h2 => by
    obtain ⟨t, ts, D1, rfl, hx, hl⟩ := means_split h
    rw [List.map_cons, plainHlp] at hp
    obtain ⟨l1, E1, w1, w2, w3, w4⟩ := shown (code := code) (R := R) (i := i)
      (fl := { fl with post := fl.post && k < 2, hor := fl.hor || k = 0 || k = 4 }) (inSet := false) (close := false) (cmd := false) (wvi := 0)
      (m := 0) (zs := []) (E := E) hT C hN hP hx (fun n t' ht => by
        cases n with
        | zero => exact hr 0 t' ht
        | succ n => simp at ht) (by simp only [List.map_cons, List.map_nil, plains, h1, Bool.true_and]; exact ⟨hp.1, trivial⟩)
      hD hE (.inl rfl) (by simp) (fun _ _ _ => Writes.nil)
    cases w4 with
    | cons hlk hnil =>
      cases hnil
      rename_i px
      obtain ⟨p', x'⟩ := px
      obtain ⟨rfl, hu⟩ := hlk
      have hnt : x' ≠ .tail := by rintro rfl; exact means_not_tail w2
      obtain ⟨m1, fl1, e1, e2, e3⟩ := one_written hnt (by simpa using w1)
      obtain ⟨l', E2, m2, fl2, q1, q2, q3, q4, q5⟩ := hlp_shown (k := k + 1) (i := i + 1) (fl := { fl1 with post := true, hor := fl.hor }) (E := E1)
        hT C hN hP hl (fun n t' ht => by rw [show i + 1 + n = i + (n + 1) by omega]; exact hr _ _ (by simpa using ht))
        hp.2 w3.1 w3.2 rfl (e2.trans h2)
      refine ⟨(p, x') :: l', E2, m1 + m2 + 1, fl2, fun f hf => ?_, q2, ?_, q4, .cons ⟨rfl, hu⟩ q5⟩
      · obtain ⟨f, rfl⟩ : ∃ g, f = g + 1 := ⟨f - 1, by omega⟩
        rw [List.length_cons, writeHlp]
        simp only [Bool.false_eq_true, if_false, e3 f (by omega), q1 f (by omega)]
        rfl
      · rw [rens]; exact means_join w2 q3

/-! ## Views -/

theorem views_shown (hT : T.ref = 0) (C : Corr T ρ L L') (hN : Numbered H ρ) (hP : P.close false) {v : Class} (hm : v.members.length = arity v) :
    ∀ {xs : List Syn} {D E : List Name} {ts : List Top} {vs : List View} {fl : Fl}, ViewsMean P L v xs D ts →
    List.Forall₂ (fun v t => TopReads v.code H v.refs t) vs ts → plainViews T (ctx L) xs → Known L D → Under ρ D E → fl.post = true →
    ∃ xs' m fl', (∀ f ≥ m, writeViews f T fl vs = some (xs', fl')) ∧ (fl'.post = true ∧ fl'.inHlp = fl.inHlp) ∧
      ViewsMean P L' v xs' E (ts.map fun t => ⟨t.head, rens ρ t.kids⟩) ∧ (xs ≠ [] → xs' ≠ [])
  | _, D, E, _, vs, fl, .nil, hr, _, hD, hE, h1 => by
    cases hr
    exact ⟨[], 0, fl, fun f _ => rfl, ⟨h1, rfl⟩, .nil, fun h => absurd rfl h⟩
  | _, D, E, _, vs, fl, .cons (elems := elems) (kids := kids) (r := r) hn ha hf hrest, hr, hp, hD, hE, h1 => by
    cases hr with
    | cons hv hvs =>
      rename_i w ws
      obtain ⟨⟨p1, p2, p3⟩, p4⟩ := hp
      obtain ⟨t1, t2, t3⟩ := hv
      have hle : elems.length ≤ v.members.length := by omega
      have hkl : kids.length = elems.length := by rw [Means.len ha]; simp; omega
      obtain ⟨l', E1, w1, w2, w3, w4⟩ := shown (code := w.code) (R := w.refs) (i := 1) (fl := fl) (inSet := true) (close := true) (cmd := false)
        (wvi := 0) (m := 0) (zs := []) (E := E) hT C hN hP ha t3 (by rw [zip_snd (by simpa using hle), h1]; exact p3) hD hE (.inl rfl)
        (by simp) (fun _ _ _ => Writes.nil)
      obtain ⟨m1, fl1, e1, e2, e3⟩ := w1
      have hz := like_zip w4 (by simpa using hle)
      have hs := like_snd w4
      rw [zip_snd (by simpa using hle)] at hs
      obtain ⟨xs', m2, fl2, q1, q2, q3, q4⟩ := views_shown hT C hN hP hm (fl := fl1) (E := E1) hrest hvs p4 w3.1 w3.2 (e1.trans h1)
      refine ⟨.set none (l'.map (·.2)) :: xs', m1 + m2, fl2, fun f hf => ?_, ⟨q2.1, q2.2.trans e2⟩, ?_, fun _ => by simp⟩
      · rw [writeViews]
        simp only [cell_eq t1]
        rw [if_neg (by rw [t2]; simp only [viewMax]; omega), t2]
        have h3 := e3 f (by omega)
        simp only [Nat.add_zero, List.append_nil] at h3
        simp only [h3, q1 f (by omega), Option.map_some]
      · refine .cons (by rw [← hs.length_eq]; exact hn) (by rw [← hz]; exact w2) ?_ q3
        simp only [Top.fits, sizes_rens] at hf ⊢
        rw [rens_eq, List.length_map]; exact hf

/-! ## The names of variables -/

theorem varName_inj {a b : Nat} (h : varName a = varName b) : a = b := by
  simp only [varName, List.cons.injEq, true_and] at h
  rw [← TimeText.value_dec a, h, TimeText.value_dec]

/-- Variables under their numbers. -/
noncomputable def numbered (H : List Name) (x : Name) : Name := varName (H.idxOf x)

theorem numbered_ok (hH : H.Nodup) : Numbered H (numbered H) := by
  intro k x h
  obtain ⟨hk, rfl⟩ := List.getElem?_eq_some_iff.1 h
  rw [numbered, List.Nodup.idxOf_getElem hH]

open Classical in
/-- The variable that has a number; what others are called does not matter. -/
noncomputable def back (H : List Name) (y : Name) : Name :=
  if h : ∃ x ∈ H, numbered H x = y then h.choose else List.replicate ((H.map List.length).sum + 1) 'x' ++ y

theorem numbered_inj {x y : Name} (hx : x ∈ H) (h : numbered H x = numbered H y) : x = y :=
  (List.idxOf_inj hx).1 (varName_inj h)

theorem back_numbered {x : Name} (hx : x ∈ H) : back H (numbered H x) = x := by
  have h : ∃ y ∈ H, numbered H y = numbered H x := ⟨x, hx, rfl⟩
  rw [back, dif_pos h]
  exact numbered_inj h.choose_spec.1 h.choose_spec.2

theorem len_le {x : Name} : ∀ {H : List Name}, x ∈ H → x.length ≤ (H.map List.length).sum
  | _ :: _, .head _ => by simp
  | _ :: _, .tail _ h => by have := len_le h; simp; omega

theorem back_inj {y z : Name} (h : back H y = back H z) : y = z := by
  have long : ∀ {x w : Name}, x ∈ H → x ≠ List.replicate ((H.map List.length).sum + 1) 'x' ++ w := by
    rintro x w hx rfl
    have := len_le hx
    simp only [List.length_append, List.length_replicate] at this
    omega
  by_cases hy : ∃ x ∈ H, numbered H x = y <;> by_cases hz : ∃ x ∈ H, numbered H x = z <;>
    simp only [back, hy, hz, dite_true, dite_false] at h
  · rw [← hy.choose_spec.2, ← hz.choose_spec.2, h]
  · exact absurd h (long hy.choose_spec.1)
  · exact absurd h.symm (long hz.choose_spec.1)
  · exact List.append_cancel_left h

/-- What reads with numbers reads with other names for them. -/
theorem reads_ren (σ : Name → Name) {i : Nat} {t : Tree} (h : Reads code H R i t) : Reads code (H.map σ) R i (ren σ t) := by
  induction h with
  | word h => exact .word h
  | var hk h hx => exact .var hk h (by simp [hx])
  | obj hk h ho => exact .obj hk h ho
  | time hj hij h ha hv => exact .time hj hij h ha hv
  | str hj hij h hl ha hs => exact .str hj hij h hl ha hs
  | node hj hij h ha hn hk ih =>
    refine .node hj hij h ha (by rw [rens_eq, List.length_map]; exact hn) fun k t ht => ?_
    rw [rens_eq, List.getElem?_map, Option.map_eq_some_iff] at ht
    obtain ⟨t', h1, rfl⟩ := ht
    exact ih _ _ h1
  | assign hj hij hv hx h ha hn hk ih =>
    refine .assign hj hij hv (by simp [hx]) h ha (by rw [rens_eq, List.length_map]; exact hn) fun k t ht => ?_
    rw [rens_eq, List.getElem?_map, Option.map_eq_some_iff] at ht
    obtain ⟨t', h1, rfl⟩ := ht
    exact ih _ _ h1

theorem rens_back {σ : Name → Name} {ts : List Tree} (h : ∀ (k : Nat) t, ts[k]? = some t → ren σ (ren ρ t) = t) :
    rens σ (rens ρ ts) = ts := by
  rw [rens_eq, rens_eq, List.map_map]
  refine List.ext_getElem? fun k => ?_
  rw [List.getElem?_map]
  cases hk : ts[k]? with
  | none => rfl
  | some t => simp [h k t hk]

/-- All variables that are read have numbers. -/
theorem reads_back {i : Nat} {t : Tree} (h : Reads code H R i t) : ren (back H) (ren (numbered H) t) = t := by
  induction h with
  | word h => rfl
  | var hk h hx => simp only [ren]; rw [back_numbered (List.mem_of_getElem? hx)]
  | obj hk h ho => rfl
  | time hj hij h ha hv => rfl
  | str hj hij h hl ha hs => rfl
  | node hj hij h ha hn hk ih => rw [ren, ren, rens_back ih]; rfl
  | assign hj hij hv hx h ha hn hk ih =>
    rw [ren, ren, rens_back ih, Option.map_some, Option.map_some, back_numbered (List.mem_of_getElem? hx)]

/-- The same with the variables under their numbers. -/
noncomputable def Top.num (H : List Name) (t : Top) : Top := ⟨t.head, rens (numbered H) t.kids⟩

theorem top_back {t : Top} (h : TopReads code H R t) {code' : List Word} {H' : List Name} {R' : List Nat}
    (h' : TopReads code' H' R' (Top.num H t)) : TopReads code' (H'.map (back H)) R' t := by
  obtain ⟨_, _, a3⟩ := h
  obtain ⟨b1, b2, b3⟩ := h'
  refine ⟨b1, by rw [← List.length_map (f := ren (numbered H)), ← rens_eq]; exact b2, fun k x hx => ?_⟩
  have := reads_ren (back H) (b3 k (ren (numbered H) x) (by rw [Top.num, rens_eq]; simp [hx]))
  rwa [reads_back (a3 k x hx)] at this

/-! ## Objects -/

/-- The labels that objects had and those that are written, of the first `n`. -/
structure Labels (T : Meta) (n : Nat) (g g' : Name → Option (Nat × Ret)) : Prop where
  old : ∀ x o t, g x = some (o, t) → o < n ∧ ∃ y t', T.names o = some y ∧ g' y = some (o, t')
  new : ∀ y p, g' y = some p → ∃ k < n, T.names k = some y

theorem corr {W : World} {N n : Nat} {g g' : Name → Option (Nat × Ret)} (hL : Labelled T W N) (hn : n ≤ N) (hg : Labels T n g g')
    {inHlp vars pat : Bool} {V : List Name} {G : List Nat} :
    Corr T ρ ⟨W.classes, W.sys, g, inHlp, vars, pat, V, G⟩ ⟨W.classes, W.sys, g', inHlp, vars, pat, V.map ρ, G⟩ where
  classes := rfl
  sys := rfl
  inHlp := rfl
  vars := rfl
  pat := rfl
  objs := rfl
  globals x o t h := by
    obtain ⟨h1, y, t', h2, h3⟩ := hg.old x o t h
    obtain ⟨z, e1, e2, e3⟩ := hL.all o (by omega)
    rw [h2, Option.some.injEq] at e1
    subst e1
    exact ⟨y, t', h2, h3, e2⟩
  free k := by
    refine ⟨?_, hL.vars k⟩
    cases h : g' (varName k) with
    | none => exact h
    | some p =>
      obtain ⟨j, h1, h2⟩ := hg.new _ _ h
      obtain ⟨z, e1, e2, e3⟩ := hL.all j (by omega)
      rw [h2, Option.some.injEq] at e1
      exact absurd e1.symm (e3 k)
  names x hx := List.mem_map_of_mem hx

/-- Objects are written as they were meant. -/
theorem object_shown (hT : T.ref = 0) (hP : P.close false) {W : World} {N n k : Nat} {g g' : Name → Option (Nat × Ret)}
    (hL : Labelled T W N) (hn : n ≤ N) (hg : Labels T n g g') {o : Source} {b : Obj} {t : ObjTree} {fl : Fl}
    (h : ObjMeans P W g o t) (hr : ObjReads b t) (hp : plainObj T W g o) (h1 : fl.post = true) (h2 : fl.inHlp = false) :
    ∃ o' t' m fl', (∀ f ≥ m, decompileObject f T fl k b = some (o', fl')) ∧ (fl'.post = true ∧ fl'.inHlp = false) ∧
      (o'.label = T.names k ∧ o'.head = o.head) ∧ ObjMeans P W g' o' t' ∧ ∀ b', ObjReads b' t' → ObjReads b' t := by
  obtain ⟨H, hH, rt, rv⟩ := hr
  cases h with
  | mk hc hm h0 hV hG hna ha hf hv =>
    rename_i c V G kids D views
    obtain ⟨hh, ⟨r, hre, hi, hpl⟩, hpv⟩ := hp c hc
    have C1 : Corr T (numbered H) (bodyLang W g c V G) (bodyLang W g' c (V.map (numbered H)) G) := corr hL hn hg
    have C2 : Corr T (numbered H) (viewLang W g c V G) (viewLang W g' c (V.map (numbered H)) G) := corr hL hn hg
    have hN := numbered_ok hH
    have hle : o.args.length ≤ c.members.length := by omega
    have hD0 : Known (bodyLang W g c V G) [] := fun x hx => by cases hx
    have hE0 : Under (numbered H) [] [] := fun x hx => by cases hx
    obtain ⟨r1, r2, r3⟩ := rt
    have body : ∃ l' E1 m fl', (∀ f ≥ m, writeExpr f T b.code b.refs { fl with hor := false } 0 = some (o.head, l'.map (·.2), fl')) ∧
        (fl'.post = true ∧ fl'.inHlp = false) ∧ Means P (bodyLang W g' c (V.map (numbered H)) G) l' [] (rens (numbered H) kids) E1 ∧
        (Known (bodyLang W g c V G) D ∧ Under (numbered H) D E1) ∧
        List.Forall₂ (Like (bodyLang W g c V G)) ((c.members.map Pos.mem).zip o.args) l' := by
      by_cases hlp : r = .hlp
      · subst hlp
        rw [plainTop, if_pos rfl] at hpl
        obtain ⟨l', E1, m, fl1, w1, w2, w3, w4, w5⟩ := hlp_shown (code := b.code) (R := b.refs) (i := 1) (k := 0)
          (fl := { hor := false, inHlp := true, post := fl.post }) (E := []) hT C1 hN hP ha r3
          (by rw [zip_snd (by simpa using hle)]; exact hpl) hD0 hE0 h1 rfl
        refine ⟨l', E1, m + 1, { fl1 with inHlp := false }, fun f hf => ?_, ⟨w2.1, rfl⟩, w3, w4, w5⟩
        obtain ⟨f, rfl⟩ : ∃ g, f = g + 1 := ⟨f - 1, by omega⟩
        rw [writeExpr]
        simp only [cell_eq r1, hre, hh, r2, w1 f (by omega), Option.map_some]
      · rw [plainTop, if_neg hlp] at hpl
        have hok : HeadOk T o.head c.atom := ⟨hh, r, hre, hlp, hi⟩
        obtain ⟨fl1, wvi, e1, e2, e3, hx⟩ := expr_writes (R := b.refs) (fl := { fl with hor := false }) r1 hok
        obtain ⟨l', E1, w1, w2, w3, w4⟩ := shown (code := b.code) (R := b.refs) (i := 1) (fl := fl1) (inSet := false) (close := false)
          (wvi := wvi) (m := 0) (zs := []) (E := []) hT C1 hN hP ha r3
          (by rw [zip_snd (by simpa using hle), e1]; simp only [h1]; exact hpl) hD0 hE0 e3 (by simp) (fun _ _ _ => Writes.nil)
        obtain ⟨m, fl2, f1, f2, f3⟩ := hx (l'.map (·.2)) (by rw [r2]; simpa using w1)
        exact ⟨l', E1, m, fl2, f3, ⟨f1.trans h1, f2.trans h2⟩, w2, w3, w4⟩
    obtain ⟨l', E1, m, fl1, w1, w2, w3, w4, w5⟩ := body
    have hz := like_zip w5 (by simpa using hle)
    have hs := like_snd w5
    rw [zip_snd (by simpa using hle)] at hs
    have fits : Top.fits ⟨c.atom, rens (numbered H) kids⟩ := by
      simp only [Top.fits, sizes_rens] at hf ⊢
      rw [rens_eq, List.length_map]; exact hf
    have bk : ∀ b', ObjReads b' ⟨Top.num H ⟨c.atom, kids⟩, views.map (Top.num H)⟩ → ObjReads b' ⟨⟨c.atom, kids⟩, views⟩ := by
      rintro b' ⟨H', q1, q2, q3⟩
      refine ⟨H'.map (back H), q1.map fun _ _ h => back_inj h, top_back ⟨r1, r2, r3⟩ q2, ?_⟩
      have key : ∀ {vs vs' : List View} {views : List Top}, List.Forall₂ (fun v t => TopReads v.code H v.refs t) vs views →
          List.Forall₂ (fun v t => TopReads v.code H' v.refs t) vs' (views.map (Top.num H)) →
          List.Forall₂ (fun v t => TopReads v.code (H'.map (back H)) v.refs t) vs' views := by
        intro vs vs' views h
        induction h generalizing vs' with
        | nil => intro h; cases h; exact .nil
        | cons h1 _ ih => intro h; cases h with
          | cons h2 h3 => exact .cons (top_back h1 h2) (ih h3)
      exact key rv q3
    cases hov : o.views with
    | none =>
      rw [hov] at hv
      simp only at hv
      subst hv
      simp only at rv
      cases hbv : b.views with
      | cons v vs => rw [hbv] at rv; cases rv
      | nil =>
        refine ⟨⟨T.names k, o.head, l'.map (·.2), none⟩, _, m, fl1, fun f hf => ?_, w2, ⟨rfl, rfl⟩,
          .mk (views := []) hc hm h0 (V := V.map (numbered H)) (by simpa using hV) hG (by rw [← hs.length_eq]; exact hna) (by rw [← hz]; exact w3) fits rfl, bk⟩
        rw [decompileObject]; simp only [w1 f hf, hbv]; rfl
    | some xs =>
      rw [hov] at hv
      obtain ⟨hne, v, v1, v2, v3, v4, v5, v6⟩ := hv
      obtain ⟨xs', m2, fl2, q1, q2, q3, q4⟩ := views_shown (fl := fl1) hT C2 hN hP v4 v6 rv (hpv xs hov) w4.1 w4.2 w2.1
      refine ⟨⟨T.names k, o.head, l'.map (·.2), some xs'⟩, _, m + m2, fl2, fun f hf => ?_, ⟨q2.1, q2.2.trans w2.2⟩, ⟨rfl, rfl⟩,
        .mk (views := views.map (Top.num H)) hc hm h0 (V := V.map (numbered H)) (by simpa using hV) hG (by rw [← hs.length_eq]; exact hna) (by rw [← hz]; exact w3) fits
          ⟨q4 hne, v, v1, v2, v3, v4, v5, q3⟩, bk⟩
      rw [decompileObject]; simp only [w1 f (by omega), q1 f (by omega)]
      cases hbv : b.views with
      | nil =>
        rw [hbv] at rv
        cases rv
        cases v6
        exact absurd rfl hne
      | cons _ _ => rfl

/-! ## Sources -/

theorem source_shown (hT : T.ref = 0) (hP : P.close false) {W : World} {N : Nat} (hL : Labelled T W N) :
    ∀ {src : List Source} {ts : List ObjTree} {n : Nat} {g g' : Name → Option (Nat × Ret)} {objs : List Obj} {fl : Fl},
    SrcMeans P W g n src ts → List.Forall₂ ObjReads objs ts → plainSrc T W g n src → n + src.length ≤ N → Labels T n g g' →
    fl.post = true → fl.inHlp = false →
    ∃ src' ts' m, (∀ f ≥ m, decompileFrom f T fl n objs = some src') ∧ SrcMeans P W g' n src' ts' ∧
      List.Forall₂ (fun t' t => ∀ b, ObjReads b t' → ObjReads b t) ts' ts := by
  intro src ts n g g' objs fl h
  induction h generalizing g' objs fl with
  | nil => intro hr _ _ _ _ _; cases hr; exact ⟨[], [], 0, fun _ _ => rfl, .nil, .nil⟩
  | cons hl ho hr ih =>
    rename_i g n o t r ts
    intro hrd hp hn hg h1 h2
    cases hrd with
    | cons hb hbs =>
      rename_i b bs
      rw [List.length_cons] at hn
      obtain ⟨x, hx, hxc, hxv⟩ := hL.all n (by omega)
      obtain ⟨c, hc⟩ : ∃ c, W.sys o.head = some c := by cases ho with | mk hc => exact ⟨_, hc⟩
      have hg2 : Labels T (n + 1) (label W.sys g n o) (fun y => if y = x then some (n, c.type) else g' y) := by
        constructor
        · intro y k t hy
          have hy' : (∃ l, o.label = some l ∧ y = l ∧ k = n) ∨ g y = some (k, t) := by
            rw [label, hc] at hy
            cases hlb : o.label with
            | none => rw [hlb] at hy; exact .inr hy
            | some l =>
              rw [hlb] at hy
              simp only at hy
              split at hy
              · rename_i h; cases hy; exact .inl ⟨l, rfl, h, rfl⟩
              · exact .inr hy
          rcases hy' with ⟨l, _, _, rfl⟩ | hy'
          · exact ⟨by omega, x, c.type, hx, by simp⟩
          · obtain ⟨q1, z, t', q2, q3⟩ := hg.old _ _ _ hy'
            refine ⟨by omega, z, t', q2, ?_⟩
            rw [if_neg]; · exact q3
            rintro rfl
            have := hL.apart k (by omega) n (by omega) (q2.trans hx.symm)
            omega
        · intro y p hy
          split at hy
          · rename_i h; subst h; exact ⟨n, by omega, hx⟩
          · obtain ⟨k, q1, q2⟩ := hg.new _ _ hy; exact ⟨k, by omega, q2⟩
      obtain ⟨o', t', m1, fl1, a1, a2, a3, a4, a5⟩ := object_shown (k := n) (fl := fl) hT hP hL (by omega) hg2 ho hb hp.1 h1 h2
      obtain ⟨src', ts', m2, c1, c2, c3⟩ := ih hbs hp.2 (by omega) hg2 a2.1 a2.2
      have hlab : label W.sys g' n o' = fun y => if y = x then some (n, c.type) else g' y := by
        rw [label, a3.1, hx, a3.2, hc]
      refine ⟨o' :: src', t' :: ts', m1 + m2, fun f hf => ?_, .cons (fun l hl' => ?_) (by rw [hlab]; exact a4) (by rw [hlab]; exact c2), .cons a5 c3⟩
      · rw [decompileFrom, a1 f (by omega)]; simp only [c1 f (by omega), Option.map_some]
      · rw [a3.1, hx, Option.some.injEq] at hl'
        subst hl'
        cases hgl : g' x with
        | none => rfl
        | some p =>
          obtain ⟨k, q1, q2⟩ := hg.new _ _ hgl
          have := hL.apart k (by omega) n (by omega) (q2.trans hx.symm)
          omega

end Verif.Decomp
