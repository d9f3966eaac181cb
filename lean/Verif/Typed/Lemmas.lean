import Verif.Typed.Spec
import Verif.Compile.Lemmas

/-! # What is read without going into parts -/
namespace Verif.Typed
open Verif.Macro (Name)
open Verif.Compile Verif.Classes Verif.Atom

/-- What the compiler works with is as the source has it. -/
structure Fine (Γ : Ctx) (e : Env) : Prop where
  classes : Γ.classes = e.classes
  sub : ∀ h c, e.sys h = some c → e.classes h = some c
  named : ∀ x c, e.classes x = some c → c.name = x
  globals : ∀ x o t, e.globals x = some (o, t) → t = .any ∧ ∃ c, Γ.objs x = some c
  cur : e.cur.type = .any
  hlp : Γ.hlp = e.inHlp
  free : Γ.free = e.allow

/-- The names that are known to the compiler are written in the object. -/
structure Known (Γ : Ctx) (s : St) : Prop where
  hlp : ∀ n ∈ s.hlp, Γ.names (n, true)
  locals : ∀ x, s.locals x ≠ none → Γ.bound x

/-- From one state to another: names are still fine, and the ways in which classes are used in `U` are left. -/
structure Keep (Γ : Ctx) (U : Name → Iter → Prop) (s s' : St) : Prop where
  known : Known Γ s'
  use : ∀ n i, U n i → s.useAs n = i → s'.useAs n = i

/-- States that differ in code and references only. -/
structure Like (s s' : St) : Prop where
  hlp : s'.hlp = s.hlp
  locals : s'.locals = s.locals
  lvl : s'.lvl = s.lvl
  noArity : s'.noArity = s.noArity
  useAs : s'.useAs = s.useAs

/-- Before an element is read; `v`: variables may be there. -/
structure Pre (Γ : Ctx) (w v : Bool) (s : St) : Prop where
  known : Known Γ s
  noArity : w = true → s.noArity = false
  lvl : w = true → s.lvl > 0 → v = true

/-- What an attempt comes to. -/
def Ok (Γ : Ctx) (U : Name → Iter → Prop) (w : Bool) (R : St → Prop) (s : St) : Out → Prop
  | .yes s' => Keep Γ U s s' ∧ (w = true → s'.lvl = s.lvl ∧ R s')
  | .no s' => Keep Γ U s s' ∧ (w = true → s' = s)
  | .err => True

/-- An element was read. -/
def Post (Γ : Ctx) (v : Bool) (K : Option Want) (x : Syn) (s : St) : Prop :=
  x = .tail ∧ v = true ∨ s.noArity = false ∧ Fits Γ false v K x

variable {Γ : Ctx} {e : Env} {U : Name → Iter → Prop} {w v : Bool} {s s' s'' : St} {R R' : St → Prop} {K : Want} {x : Syn} {o : Out}

theorem Like.refl (s : St) : Like s s := ⟨rfl, rfl, rfl, rfl, rfl⟩

theorem Like.trans (h : Like s s') (h' : Like s' s'') : Like s s'' :=
  ⟨h'.1.trans h.1, h'.2.trans h.2, h'.3.trans h.3, h'.4.trans h.4, h'.5.trans h.5⟩

theorem Like.known (h : Like s s') (hI : Known Γ s) : Known Γ s' := ⟨by rw [h.hlp]; exact hI.hlp, by rw [h.locals]; exact hI.locals⟩

theorem Like.keep (h : Like s s') (hI : Known Γ s) : Keep Γ U s s' := ⟨h.known hI, fun n i _ h1 => by rw [h.useAs]; exact h1⟩

theorem Like.pre (h : Like s s') (hP : Pre Γ w v s) : Pre Γ w v s' :=
  ⟨h.known hP.known, by rw [h.noArity]; exact hP.noArity, by rw [h.lvl]; exact hP.lvl⟩

theorem Keep.refl (hI : Known Γ s) : Keep Γ U s s := (Like.refl s).keep hI

theorem Keep.trans (h : Keep Γ U s s') (h' : Keep Γ U s' s'') : Keep Γ U s s'' :=
  ⟨h'.known, fun n i hn hi => h'.use n i hn (h.use n i hn hi)⟩

theorem Keep.mono {U' : Name → Iter → Prop} (hU : ∀ n i, U n i → U' n i) (h : Keep Γ U' s s') : Keep Γ U s s' :=
  ⟨h.known, fun n i hn hi => h.use n i (hU n i hn) hi⟩

theorem Pre.keep (hP : Pre Γ w v s) (h : Keep Γ U s s') (hs : w = true → s' = s) : Pre Γ w v s' :=
  ⟨h.known, fun hw => by rw [hs hw]; exact hP.noArity hw, fun hw => by rw [hs hw]; exact hP.lvl hw⟩

theorem Ok.imp (h : Ok Γ U w R s o) (hR : ∀ s', w = true → R s' → R' s') : Ok Γ U w R' s o := by
  cases o with
  | yes s' => exact ⟨h.1, fun hw => ⟨(h.2 hw).1, hR _ hw (h.2 hw).2⟩⟩
  | no s' => exact h
  | err => trivial

theorem Ok.mono {U' : Name → Iter → Prop} (hU : ∀ n i, U n i → U' n i) (h : Ok Γ U' w R s o) : Ok Γ U w R s o := by
  cases o with
  | yes s' => exact ⟨h.1.mono hU, h.2⟩
  | no s' => exact ⟨h.1.mono hU, h.2⟩
  | err => trivial

theorem Ok.or {k : St → Out} (h : Ok Γ U w R s o)
    (hk : ∀ s', o = .no s' → Keep Γ U s s' → (w = true → s' = s) → Ok Γ U w R s' (k s')) : Ok Γ U w R s (o.or k) := by
  cases o with
  | yes s' => exact h
  | err => trivial
  | no s' =>
    have h1 := hk s' rfl h.1 h.2
    simp only [Out.or]
    cases hks : k s' with
    | yes t => rw [hks] at h1; exact ⟨h.1.trans h1.1, fun hw => by rw [← h.2 hw]; exact h1.2 hw⟩
    | no t => rw [hks] at h1; exact ⟨h.1.trans h1.1, fun hw => (h1.2 hw).trans (h.2 hw)⟩
    | err => trivial

theorem ok_no (hP : Known Γ s) : Ok Γ U w R s (.no s) := ⟨.refl hP, fun _ => rfl⟩

theorem ok_fail (hP : Known Γ s) : Ok Γ U w R s (fail w s) := by
  cases w with
  | true => trivial
  | false => exact ok_no hP

theorem wr_like (w : Bool) (s : St) (i : Nat) (a : Word) : Like s (wr w s i a) := by
  cases w <;> exact ⟨rfl, rfl, rfl, rfl, rfl⟩

theorem app_like (s : St) (ws : List Word) : Like s (app s ws) := by
  rw [app_eq]; exact ⟨rfl, rfl, rfl, rfl, rfl⟩

theorem fill_like (s : St) (i n : Nat) : Like s (fill s i n) := by
  rw [fill_eq]; exact ⟨rfl, rfl, rfl, rfl, rfl⟩

theorem put_like (s : St) (c : List Word) : Like s { s with code := c } := ⟨rfl, rfl, rfl, rfl, rfl⟩

theorem block_like (w : Bool) (s : St) (i : Nat) (ws : List Word) : Like s (block w s i ws) := by
  cases w with
  | false => exact .refl s
  | true => exact (put_like s _).trans (app_like _ ws)

/-- An element without parts was read. -/
theorem ok_like (h : Like s s') (hP : Pre Γ w v s) (hF : w = true → Fits Γ false v (some K) x) :
    Ok Γ U w (Post Γ v (some K) x) s (.yes s') :=
  ⟨h.keep hP.known, fun hw => ⟨h.lvl, .inr ⟨by rw [h.noArity]; exact hP.noArity hw, hF hw⟩⟩⟩

theorem local_keep {i : Nat} {t : Ret} {l : Name} (hI : Known Γ s) (hl : Γ.bound l) : Keep Γ U s (addLocal s l i t) := by
  refine ⟨⟨hI.hlp, fun x hx => ?_⟩, fun _ _ _ h => h⟩
  simp only [addLocal] at hx
  by_cases hxl : x = l
  · rw [hxl]; exact hl
  · rw [if_neg hxl] at hx; exact hI.locals x hx

theorem addHlp_keep {i : Nat} {n : Name} (hI : Known Γ s) (hn : Γ.names (n, true)) (h : addHlp s n = some (i, s')) :
    Keep Γ U s s' ∧ s'.lvl = s.lvl ∧ s'.noArity = s.noArity := by
  unfold addHlp at h
  simp only at h
  by_cases h1 : s.hlp.idxOf n < s.hlp.length
  · rw [if_pos h1] at h
    by_cases h2 : s.hlp.idxOf n < 256
    · rw [if_pos h2] at h; cases h; exact ⟨.refl hI, rfl, rfl⟩
    · rw [if_neg h2] at h; cases h
  · rw [if_neg h1] at h
    by_cases h2 : s.hlp.length < 256
    · rw [if_pos h2] at h; cases h
      refine ⟨⟨⟨fun m hm => ?_, hI.locals⟩, fun _ _ _ h => h⟩, rfl, rfl⟩
      simp only [List.mem_append, List.mem_singleton] at hm
      rcases hm with hm | rfl
      · exact hI.hlp m hm
      · exact hn
    · rw [if_neg h2] at h; cases h

theorem readVar_ok (F : Fine Γ e) (hP : Pre Γ w v s) (hn : ∀ q ∈ names x, Γ.names q) (hK : K ≠ .cls) (wi : Nat) (t : Ret)
    (op : BitVec 16) : Ok Γ U w (Post Γ v (some K) x) s (readVar e s wi w t op x) := by
  cases x with
  | var n =>
    simp only [readVar]
    by_cases h1 : s.lvl > 0 ∨ e.allow
    · rw [if_pos h1]
      have hF : w = true → Fits Γ false v (some K) (.var n) := by
        intro hw
        refine .var ?_ hK
        rcases h1 with h1 | h1
        · exact .inl (hP.lvl hw h1)
        · exact .inr (by rw [F.free]; exact h1)
      have hnn : Γ.names (n, true) := hn _ (by simp [names])
      by_cases h2 : e.inHlp ∨ (e.allow ∧ e.cur.name ≠ "pgm".toList)
      · rw [if_pos h2]
        cases h3 : addHlp s n with
        | none => trivial
        | some q =>
          obtain ⟨i, s1⟩ := q
          obtain ⟨h4, h5, h6⟩ := addHlp_keep (U := U) hP.known hnn h3
          have hl := wr_like w s1 wi (vlPointer (BitVec.ofNat 16 i))
          exact ⟨h4.trans (hl.keep h4.known), fun hw => ⟨hl.lvl.trans h5, .inr ⟨by rw [hl.noArity, h6]; exact hP.noArity hw, hF hw⟩⟩⟩
      · rw [if_neg h2]
        have h4 : Keep Γ U s (addLocal s n wi t) := local_keep hP.known (.inl hnn)
        have hl := wr_like w (addLocal s n wi t) wi (wildcard op)
        exact ⟨h4.trans (hl.keep h4.known), fun hw => ⟨hl.lvl, .inr ⟨by rw [hl.noArity]; exact hP.noArity hw, hF hw⟩⟩⟩
    · rw [if_neg h1]; exact ok_fail hP.known
  | _ => exact ok_no hP.known

theorem readHlpRef_ok (hP : Pre Γ w v s) (hK : K ≠ .cls) (wi : Nat) (n : Name) (b : Bool) :
    Ok Γ U w (Post Γ v (some K) (.name n b)) s (readHlpRef s wi w n b) := by
  simp only [readHlpRef]
  by_cases h1 : ¬ b ∧ s.hlp.idxOf n < s.hlp.length
  · rw [if_pos h1]
    by_cases h2 : s.hlp.idxOf n < 256
    · rw [if_pos h2]
      exact ok_like (wr_like _ _ _ _) hP fun _ => .name (.inl (hP.known.hlp n (List.idxOf_lt_length_iff.1 h1.2))) hK
    · rw [if_neg h2]; trivial
  · rw [if_neg h1]
    by_cases h2 : ¬ b ∧ s.hlp.length > 255
    · rw [if_pos h2]; trivial
    · rw [if_neg h2]; exact ok_no hP.known

theorem readGlobalRef_ok (F : Fine Γ e) (hP : Pre Γ w v s) (hK : K ≠ .cls) {t : Ret} (ht : t = .any → refFits K) (wi : Nat) (n : Name)
    (b : Bool) : Ok Γ U w (Post Γ v (some K) (.name n b)) s (readGlobalRef e s wi w t n b) := by
  simp only [readGlobalRef]
  cases hg : e.globals n with
  | none => exact readHlpRef_ok hP hK wi n b
  | some q =>
    obtain ⟨i, ty⟩ := q
    obtain ⟨h1, c, h2⟩ := F.globals n i ty hg
    simp only
    by_cases h3 : t = .any ∨ ty = t
    · rw [if_pos h3]
      have h4 : t = .any := by
        rcases h3 with h3 | h3
        · exact h3
        · rw [← h3, h1]
      have hl : Like s (wr w (refIndex s i).2 wi (rPointer (BitVec.ofNat 16 (refIndex s i).1))) := by
        refine Like.trans ?_ (wr_like _ _ _ _)
        unfold refIndex
        simp only
        split <;> exact ⟨rfl, rfl, rfl, rfl, rfl⟩
      exact ok_like hl hP fun _ => .obj h2 (ht h4) (by simp)
    · rw [if_neg h3]; exact readHlpRef_ok hP hK wi n b

theorem readRef_ok (F : Fine Γ e) (hP : Pre Γ w v s) (hK : K ≠ .cls) {t : Ret} (ht : t = .any → refFits K) (wi : Nat) :
    Ok Γ U w (Post Γ v (some K) x) s (readRef e s wi w t x) := by
  cases x with
  | this =>
    simp only [readRef]
    by_cases h : t = .any ∨ e.cur.type = t
    · rw [if_pos h]
      have h4 : t = .any := by
        rcases h with h | h
        · exact h
        · rw [← h, F.cur]
      exact ok_like (wr_like _ _ _ _) hP fun _ => .this (ht h4)
    · rw [if_neg h]; exact ok_no hP.known
  | name n b =>
    simp only [readRef]
    cases hl : s.locals n with
    | none => exact readGlobalRef_ok F hP hK ht wi n b
    | some q =>
      obtain ⟨i, ty⟩ := q
      simp only
      by_cases h : t = .any ∨ ty = .any ∨ ty = t
      · rw [if_pos h]
        exact ok_like (wr_like _ _ _ _) hP fun _ => .name (hP.known.locals n (by rw [hl]; simp)) hK
      · rw [if_neg h]; exact readGlobalRef_ok F hP hK ht wi n b
  | _ => exact ok_no hP.known

theorem readWild_ok (F : Fine Γ e) (hP : Pre Γ w v s) (hK : K ≠ .cls) (wi : Nat) :
    Ok Γ U w (Post Γ v (some K) x) s (readWild e s wi w x) := by
  cases x with
  | wild =>
    simp only [readWild]
    by_cases h1 : s.lvl > 0 ∨ e.allow
    · rw [if_pos h1]
      refine ok_like (wr_like _ _ _ _) hP fun hw => .wild ?_ hK
      rcases h1 with h1 | h1
      · exact .inl (hP.lvl hw h1)
      · exact .inr (by rw [F.free]; exact h1)
    · rw [if_neg h1]; exact ok_fail hP.known
  | tail =>
    simp only [readWild]
    by_cases h1 : s.lvl > 0
    · rw [if_pos h1]
      have hl := wr_like w { s with noArity := true } wi tailWildcard
      refine ⟨⟨hl.known ⟨hP.known.hlp, hP.known.locals⟩, fun n i _ h => by rw [hl.useAs]; exact h⟩, fun hw => ⟨hl.lvl, .inl ⟨rfl, hP.lvl hw h1⟩⟩⟩
    · rw [if_neg h1]
      cases w with
      | true => trivial
      | false => exact ⟨⟨⟨hP.known.hlp, hP.known.locals⟩, fun _ _ _ h => h⟩, by simp⟩
  | _ => exact ok_no hP.known

theorem readNil_ok (hP : Pre Γ w v s) (k : Lit) (wi : Nat) : Ok Γ U w (Post Γ v (some (.lit k)) x) s (readNil k s wi w x) := by
  cases x with
  | nilw n =>
    cases k <;> cases n <;> first
      | exact ok_no hP.known
      | exact ok_like (wr_like _ _ _ _) hP fun _ => .nilw rfl
      | exact ok_like (block_like _ _ _ _) hP fun _ => .nilw rfl
  | _ => exact ok_no hP.known

theorem readLiteral_ok (F : Fine Γ e) (hP : Pre Γ w v s) (k : Lit) (wi : Nat) :
    Ok Γ U w (Post Γ v (some (.lit k)) x) s (readLiteral k e s wi w x) := by
  cases x with
  | num b =>
    simp only [readLiteral]
    by_cases h : k = .number
    · rw [if_pos h]; exact ok_like (wr_like _ _ _ _) hP fun _ => .lit rfl (.inr (by rw [h]))
    · rw [if_neg h]; exact ok_no hP.known
  | ts b =>
    simp only [readLiteral]
    by_cases h : k = .timestamp
    · rw [if_pos h]; exact ok_like (block_like _ _ _ _) hP fun _ => .lit rfl (.inr (by rw [h]))
    · rw [if_neg h]; exact ok_no hP.known
  | dur b =>
    simp only [readLiteral]
    by_cases h : k = .duration
    · rw [if_pos h]; exact ok_like (block_like _ _ _ _) hP fun _ => .lit rfl (.inr (by rw [h]))
    · rw [if_neg h]; exact ok_no hP.known
  | str b =>
    simp only [readLiteral]
    by_cases h : k = .string
    · rw [if_pos h]; exact ok_like (block_like _ _ _ _) hP fun _ => .lit rfl (.inr (by rw [h]))
    · rw [if_neg h]; exact ok_no hP.known
  | bool b =>
    simp only [readLiteral]
    by_cases h : k = .boolean
    · rw [if_pos h]; exact ok_like (wr_like _ _ _ _) hP fun _ => .lit rfl (.inr (by rw [h]))
    · rw [if_neg h]; exact ok_no hP.known
  | hex b =>
    simp only [readLiteral]
    by_cases h : k = .node ∧ getDescriptor b = 0xA0 ∨ k = .device ∧ getDescriptor b = 0xA1
    · rw [if_pos h]
      refine ok_like (wr_like _ _ _ _) hP fun _ => .lit (k := k) ?_ (.inr rfl)
      rcases h with ⟨rfl, h⟩ | ⟨rfl, h⟩
      · rw [litOf, if_pos h]
      · rw [litOf, if_neg (by rw [h]; decide), if_pos h]
    · rw [if_neg h]; exact ok_no hP.known
  | name n b =>
    simp only [readLiteral]
    by_cases h : k = .function ∧ ¬ b
    · rw [if_pos h]
      cases hc : e.classes n with
      | none => exact ok_no hP.known
      | some c => exact ok_like (wr_like _ _ _ _) hP fun _ => .fn (by rw [F.classes, hc]; simp) (.inr (by rw [h.1]))
    · rw [if_neg h]; exact ok_no hP.known
  | expr l h args =>
    cases l with
    | none => exact ok_no hP.known
    | some l =>
      simp only [readLiteral]
      split
      · trivial
      · exact ok_no hP.known
  | set l elems =>
    cases l with
    | none => exact ok_no hP.known
    | some l =>
      simp only [readLiteral]
      split
      · trivial
      · exact ok_no hP.known
  | _ => exact ok_no hP.known

theorem readSimple_ok (F : Fine Γ e) (hP : Pre Γ w v s) (hn : ∀ q ∈ names x, Γ.names q) (k : Lit) (wi : Nat) :
    Ok Γ U w (Post Γ v (some (.lit k)) x) s (readSimple k e s wi w x) := by
  have hk : k.ret = .any → refFits (.lit k) := by cases k <;> intro h <;> cases h
  refine (readNil_ok hP k wi).or fun s1 _ h1 h2 => ?_
  have P1 := hP.keep h1 h2
  refine (readVar_ok F P1 hn (by simp) wi _ _).or fun s2 _ h1 h2 => ?_
  have P2 := P1.keep h1 h2
  refine (readRef_ok F P2 (by simp) hk wi).or fun s3 _ h1 h2 => ?_
  have P3 := P2.keep h1 h2
  refine (readWild_ok F P3 (by simp) wi).or fun s4 _ h1 h2 => ?_
  exact readLiteral_ok F (P3.keep h1 h2) k wi

theorem readClass_ok (F : Fine Γ e) (hP : Pre Γ w v s) (hn : ∀ q ∈ names x, Γ.names q) (hK : K = .any ∨ K = .cls) (wi : Nat) :
    Ok Γ U w (Post Γ v (some K) x) s (readClass e s wi w x) := by
  cases x with
  | cls l n =>
    simp only [readClass]
    cases hc : (e.sys n <|> e.classes n) with
    | none => exact ok_no hP.known
    | some c =>
      have h4 : Keep Γ U s (addLocal s l wi c.type) := local_keep hP.known (.inr (hn _ (by simp [names])))
      have hl := wr_like w (addLocal s l wi c.type) wi c.atom
      refine ⟨h4.trans (hl.keep h4.known), fun hw => ⟨hl.lvl, .inr ⟨by rw [hl.noArity]; exact hP.noArity hw, .cls ?_ hK⟩⟩⟩
      rw [F.classes]
      intro h0
      rw [h0] at hc
      cases hs : e.sys n with
      | none => rw [hs] at hc; cases hc
      | some d => rw [F.sub n d hs] at h0; cases h0
  | _ => exact ok_no hP.known

/-- What fits a kind of values, expressions or sets fits where anything may stand. -/
theorem Fits.widen (h : Fits Γ false v (some K) x) (hK : (∃ k, K = .lit k) ∨ K = .expr none ∨ K = .set none) :
    Fits Γ false v (some .any) x := by
  have hc : K ≠ .cls := by rintro rfl; simp at hK
  have hl : ∀ {c l}, lblFits Γ false K c l → lblFits Γ false .any c l := by
    intro c l h n hn hh
    rcases h n hn hh with h | ⟨_, h, _⟩
    · exact .inl h
    · subst h; simp at hK
  cases h with
  | nilw h => exact .nilw rfl
  | empty h => exact .empty (.inl rfl)
  | this h => exact .this trivial
  | lit hx h => exact .lit hx (.inl rfl)
  | wild hv h => exact .wild hv (by simp)
  | var hv h => exact .var hv (by simp)
  | name hx h => exact .name hx (by simp)
  | obj hx h hs => exact .obj hx trivial (by simp)
  | fn hx h => exact .fn hx (.inl rfl)
  | cls hc h => exact .cls hc (.inl rfl)
  | expr h1 h2 h3 h4 h5 => exact .expr h1 trivial (hl h3) h4 h5
  | exprTail h1 h2 h3 h4 h5 h6 => exact .exprTail h1 trivial (hl h3) h4 h5 h6
  | setU h1 h2 h3 => exact .setU (.inl rfl) h2 h3
  | setC h1 h2 h3 => simp at hK

end Verif.Typed
