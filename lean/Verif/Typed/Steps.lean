import Verif.Typed.Main

/-! # From one depth to the next -/
namespace Verif.Typed
open Verif.Macro (Name)
open Verif.Compile Verif.Classes Verif.Atom

variable {Γ : Ctx} {e : Env} {U : Name → Iter → Prop} {w v : Bool} {s s' : St} {x : Syn} {p : Pos} {f wi : Nat} {K : Want}
  {l : Option Name} {c : Class} {args : List Syn} {i : Iter} {u : Use}

theorem not_tail {pos : Nat → Pos} {n : Nat} {r : List Syn} {cl : Name → Option Class}
    (h : NiceAll Γ cl U false pos n (x :: r)) : x ≠ .tail := by
  rintro rfl
  cases h.tail.1

theorem Post.fits {K : Option Want} (h : Post Γ v K x s) (hx : x ≠ .tail) : s.noArity = false ∧ Fits Γ false v K x := by
  rcases h with ⟨h, _⟩ | h
  · exact absurd h hx
  · exact h

theorem Post.widen (h : Post Γ v (some K) x s) (hK : (∃ k, K = .lit k) ∨ K = .expr none ∨ K = .set none) :
    Post Γ v (some .any) x s := by
  rcases h with h | h
  · exact .inl h
  · exact .inr ⟨h.1, h.2.widen hK⟩

/-- Without the label that `read_class` takes away. -/
theorem Post.unstripE (F : Fine Γ e) (h : Post Γ v (some (.expr none)) (strip x) s)
    (hl : ∀ l h args c, x = .expr l h args → e.classes h = some c → c.type = .set ∨ c.type = .cls) :
    Post Γ v (some .any) x s := by
  cases x with
  | expr l hd args =>
    rcases h with h | ⟨h1, h⟩
    · cases h.1
    · refine .inr ⟨h1, ?_⟩
      simp only [strip] at h
      cases h with
      | lit hx _ => cases hx
      | expr a1 a2 a3 a4 a5 =>
        exact .expr a1 trivial (fun _ _ _ => .inr ⟨rfl, rfl, hl _ _ _ _ rfl (by rw [← F.classes]; exact a1)⟩) a4 a5
      | exprTail a1 a2 a3 a4 a5 a6 =>
        exact .exprTail a1 trivial (fun _ _ _ => .inr ⟨rfl, rfl, hl _ _ _ _ rfl (by rw [← F.classes]; exact a1)⟩) a4 a5 a6
  | set l elems =>
    rcases h with h | ⟨h1, h⟩
    · cases h.1
    · simp only [strip] at h
      cases h with
      | lit hx _ => cases hx
      | setU a1 a2 a3 => simp at a1
  | _ => exact h.widen (.inr (.inl rfl))

theorem Post.unstripS (h : Post Γ v (some (.set none)) (strip x) s) : Post Γ v (some .any) x s := by
  cases x with
  | expr l hd args =>
    rcases h with h | ⟨h1, h⟩
    · cases h.1
    · simp only [strip] at h
      cases h with
      | lit hx _ => cases hx
      | expr a1 a2 a3 a4 a5 => cases a2
      | exprTail a1 a2 a3 a4 a5 a6 => cases a2
  | set l elems =>
    rcases h with h | ⟨h1, h⟩
    · cases h.1
    · refine .inr ⟨h1, ?_⟩
      simp only [strip] at h
      cases h with
      | lit hx _ => cases hx
      | setU a1 a2 a3 => exact .setU (.inl rfl) a2 a3
  | _ => exact h.widen (.inr (.inr rfl))

theorem step_any (F : Fine Γ e) (L : Level Γ e f) (wi : Nat) (hk : kindOf e.classes p = some .any) (hP : Pre Γ w v s)
    (hN : Nice Γ e.classes U p x) : Ok Γ U w (Post Γ v (some .any) x) s (readAny (f + 1) e s wi w x) := by
  have lit : ∀ k {s}, Pre Γ w v s → Ok Γ U w (Post Γ v (some .any) x) s (readLit f e s wi w false k x) :=
    fun k s hP => (L.lit wi false k hP hN).imp fun _ _ h => h.widen (.inl ⟨k, rfl⟩)
  simp only [readAny]
  refine (lit .number hP).or fun s1 e1 h1 h2 => ?_
  have P1 := hP.keep h1 h2; clear h1 h2
  refine (lit .timestamp P1).or fun s2 e2 h1 h2 => ?_
  have P2 := P1.keep h1 h2; clear h1 h2
  refine (lit .duration P2).or fun s3 e3 h1 h2 => ?_
  have P3 := P2.keep h1 h2; clear h1 h2
  refine (lit .string P3).or fun s4 e4 h1 h2 => ?_
  have P4 := P3.keep h1 h2; clear h1 h2
  refine (lit .boolean P4).or fun s5 e5 h1 h2 => ?_
  have P5 := P4.keep h1 h2; clear h1 h2
  refine (lit .function P5).or fun s6 e6 h1 h2 => ?_
  have P6 := P5.keep h1 h2; clear h1 h2
  refine (lit .node P6).or fun s7 e7 h1 h2 => ?_
  have P7 := P6.keep h1 h2; clear h1 h2
  refine (lit .device P7).or fun s8 e8 h1 h2 => ?_
  have P8 := P7.keep h1 h2; clear h1 h2
  refine (readClass_ok F P8 hN.names (.inl rfl) wi).or fun s9 e9 h1 h2 => ?_
  have P9 := P8.keep h1 h2; clear h1 h2
  refine ((L.expr wi false none (by simp) P9 hN.strip).imp fun s' hw h => h.unstripE F ?_).or fun s10 e10 h1 h2 => ?_
  · rintro l h args c rfl hc
    subst hw
    have := (readLit_no hc e1).1
    have := (readLit_no hc e1).2
    have := (readLit_no hc e2).2
    have := (readLit_no hc e3).2
    have := (readLit_no hc e4).2
    have := (readLit_no hc e5).2
    have := (readLit_no hc e6).2
    have := (readLit_no hc e7).2
    have := (readLit_no hc e8).2
    cases ht : c.type <;> simp_all [Lit.ret]
  have P10 := P9.keep h1 h2; clear h1 h2
  refine ((L.set wi false (p := p) (by intro k; rw [hk]; rfl) P10 hN.strip).imp fun s' hw h => h.unstripS).or fun s11 e11 h1 h2 => ?_
  exact ok_fail h1.known

theorem step_lit (F : Fine Γ e) (L : Level Γ e f) (wi : Nat) (en : Bool) (k : Lit) (hP : Pre Γ w v s)
    (hN : Nice Γ e.classes U p x) : Ok Γ U w (Post Γ v (some (.lit k)) x) s (readLit (f + 1) e s wi w en k x) := by
  simp only [readLit]
  refine (readSimple_ok F hP hN.names k wi).or fun s1 _ h1 h2 => ?_
  have P1 := hP.keep h1 h2
  refine (L.exprT wi k.ret (fun c hc => ?_) P1 hN).or fun s2 _ h3 h4 => ?_
  · rcases hc with hc | hc | hc
    · cases k <;> cases hc
    · exact .inl hc
    · exact .inr hc
  · have hr : Known Γ (restore s1 s2) := ⟨h3.known.hlp, h3.known.locals⟩
    have hk : Keep Γ U s2 (restore s1 s2) := ⟨hr, fun _ _ _ h => h⟩
    have hs : w = true → restore s1 s2 = s2 := fun hw => by rw [h4 hw]; rfl
    have : Ok Γ U w (Post Γ v (some (.lit k)) x) s2 (.no (restore s1 s2)) := ⟨hk, hs⟩
    cases en with
    | false => exact this
    | true =>
      cases w with
      | true => trivial
      | false => exact this

theorem exprWant_any (c : Class) : (exprWant c = .expr none ∧ c.name = "xpr".toList) ∨ (exprWant c = .expr (some c) ∧ c.name ≠ "xpr".toList) := by
  unfold exprWant
  by_cases h : c.name = "xpr".toList
  · rw [if_pos h]; exact .inl ⟨rfl, h⟩
  · rw [if_neg h]; exact .inr ⟨rfl, h⟩

theorem readNilX_ok {o : Option Class} (hP : Pre Γ w v s) (wi : Nat) : Ok Γ U w (Post Γ v (some (.expr o)) x) s (readNilX s wi w x) := by
  cases x with
  | nilw n =>
    cases n <;> first
      | exact ok_like (wr_like _ _ _ _) hP fun _ => .nilw rfl
      | exact ok_no hP.known
  | _ => exact ok_no hP.known

theorem step_expr (F : Fine Γ e) (L : Level Γ e f) (wi : Nat) (en : Bool) (o : Option Class)
    (ho : ∀ c, o = some c → e.classes c.name = some c) (hP : Pre Γ w v s) (hN : Nice Γ e.classes U p x) :
    Ok Γ U w (Post Γ v (some (wantE o)) x) s (readExpr (f + 1) e s wi w en o x) := by
  have main : ∀ o', o.filter (·.name ≠ "xpr".toList) = o' → (∀ c, o' = some c → e.classes c.name = some c) → wantE o = .expr o' →
      Ok Γ U w (Post Γ v (some (wantE o)) x) s (readExpr (f + 1) e s wi w en o x) := by
    intro o' he hc hw
    rw [hw]
    simp only [readExpr]
    rw [he]
    refine (readNilX_ok hP wi).or fun s1 _ h1 h2 => ?_
    have P1 := hP.keep h1 h2; clear h1 h2
    cases o' with
    | none =>
      refine (readVar_ok F P1 hN.names (by simp) wi _ _).or fun s2 _ h1 h2 => ?_
      have P2 := P1.keep h1 h2; clear h1 h2
      refine (readRef_ok (K := .expr none) F P2 (by simp) (fun _ => trivial) wi).or fun s3 _ h1 h2 => ?_
      have P3 := P2.keep h1 h2; clear h1 h2
      refine (readWild_ok F P3 (by simp) wi).or fun s4 _ h1 h2 => ?_
      have P4 := P3.keep h1 h2; clear h1 h2
      refine (L.exprT (K := .expr none) wi .any (fun c _ => trivial) P4 hN).or fun s5 _ h1 h2 => ?_
      cases en with
      | false => exact ok_no h1.known
      | true => exact ok_fail h1.known
    | some c =>
      refine (readVar_ok F P1 hN.names (by simp) wi _ _).or fun s2 _ h1 h2 => ?_
      have P2 := P1.keep h1 h2; clear h1 h2
      refine (readRef_ok (K := .expr (some c)) F P2 (by simp) (fun h => h) wi).or fun s3 _ h1 h2 => ?_
      have P3 := P2.keep h1 h2; clear h1 h2
      refine (readWild_ok F P3 (by simp) wi).or fun s4 _ h1 h2 => ?_
      have P4 := P3.keep h1 h2; clear h1 h2
      refine (L.exprC wi c (hc c rfl) P4 hN).or fun s5 _ h1 h2 => ?_
      cases en with
      | false => exact ok_no h1.known
      | true => exact ok_fail h1.known
  cases o with
  | none => exact main none rfl (by simp) rfl
  | some c =>
    rcases exprWant_any c with ⟨h1, h2⟩ | ⟨h1, h2⟩
    · exact main none (by simp [h2]) (by simp) h1
    · exact main (some c) (by simp only [Option.filter_some, decide_not, h2, decide_false, Bool.not_false, if_true]) ho h1

theorem readNilSet_ok {o : Option (Class × Iter)} (hP : Pre Γ w v s) (wi : Nat) :
    Ok Γ U w (Post Γ v (some (.set o)) x) s (readNilSet s wi w x) := by
  cases x with
  | empty => exact ok_like (block_like _ _ _ _) hP fun _ => .empty (.inr ⟨_, rfl⟩)
  | _ => exact ok_no hP.known

/-- What sets are read by, before their elements. -/
theorem step_readSet {o : Option (Class × Iter)} {q : Option (Class × Use)} (F : Fine Γ e) (wi : Nat) (en : Bool) (hP : Pre Γ w v s)
    (hn : ∀ q ∈ names x, Γ.names q)
    (hs : ∀ s1, Pre Γ w v s1 → Keep Γ U s s1 → Ok Γ U w (Post Γ v (some (.set o)) x) s1 (match q with
      | some (c, u) => setC f e s1 wi w c u x
      | none => setU f e s1 wi w x)) :
    Ok Γ U w (Post Γ v (some (.set o)) x) s (readSet (f + 1) e s wi w en q x) := by
  simp only [readSet]
  refine (readNilSet_ok hP wi).or fun s1 _ h1 h2 => ?_
  have P1 := hP.keep h1 h2; have k1 := h1; clear h1 h2
  refine (readVar_ok F P1 hn (by simp) wi _ _).or fun s2 _ h1 h2 => ?_
  have P2 := P1.keep h1 h2; have k2 := k1.trans h1; clear h1 h2
  refine (readRef_ok F P2 (by simp) (fun h => by cases h) wi).or fun s3 _ h1 h2 => ?_
  have P3 := P2.keep h1 h2; have k3 := k2.trans h1; clear h1 h2
  refine (readWild_ok F P3 (by simp) wi).or fun s4 _ h1 h2 => ?_
  have P4 := P3.keep h1 h2; have k4 := k3.trans h1; clear h1 h2
  refine (hs s4 P4 k4).or fun s5 _ h1 h2 => ?_
  cases en with
  | false => exact ok_no h1.known
  | true => exact ok_fail h1.known

theorem setU_leaf {R : St → Prop} (hx : ∀ l elems, x ≠ .set l elems) (hP : Known Γ s) : Ok Γ U w R s (setU f e s wi w x) := by
  cases f with
  | zero => simp [setU, Ok]
  | succ f =>
    cases x with
    | set l elems => exact absurd rfl (hx l elems)
    | expr l h args =>
      cases l with
      | none => exact ok_no hP
      | some l => exact ok_fail hP
    | cls l c => exact ok_fail hP
    | var n => exact ok_fail hP
    | _ => exact ok_no hP

theorem setC_leaf {R : St → Prop} (hx : ∀ l elems, x ≠ .set l elems) (hP : Known Γ s) : Ok Γ U w R s (setC f e s wi w c u x) := by
  cases f with
  | zero => simp [setC, Ok]
  | succ f =>
    cases x with
    | set l elems => exact absurd rfl (hx l elems)
    | expr l h args =>
      cases l with
      | none => exact ok_no hP
      | some l => exact ok_fail hP
    | cls l c => exact ok_fail hP
    | var n => exact ok_fail hP
    | _ => exact ok_no hP

theorem label_bound {cl : Name → Option Class} {elems : List Syn} (hN : Nice Γ cl U p (.set l elems)) : ∀ n, l = some n → Γ.names (n, false) := by
  rintro n rfl
  exact hN.names _ (by simp [names])

theorem step_set (F : Fine Γ e) (L : Level Γ e f) (wi : Nat) (en : Bool) (hk : ∀ k, elemAt (kindOf e.classes p) k = .any)
    (hP : Pre Γ w v s) (hN : Nice Γ e.classes U p x) :
    Ok Γ U w (Post Γ v (some (.set none)) x) s (readSet (f + 1) e s wi w en none x) := by
  refine step_readSet (q := none) F wi en hP hN.names fun s1 P1 _ => ?_
  by_cases hx : ∃ l elems, x = .set l elems
  · obtain ⟨l, elems, rfl⟩ := hx
    have := hN.kids
    rw [funext hk] at this
    exact (L.setU wi P1 (label_bound hN) this).ok
  · exact setU_leaf (fun l elems h => hx ⟨l, elems, h⟩) P1.known

theorem step_setBy (F : Fine Γ e) (L : Level Γ e f) {elems : List Syn} (wi : Nat) (en : Bool) (hc : e.classes c.name = some c)
    (hu : UseOk U s i u) (hP : Pre Γ w v s) (hnm : ∀ n, l = some n → Γ.names (n, false))
    (hN : NiceAll Γ e.classes U false (elemAt (some (.set (some (c, i))))) 0 elems) :
    Ok Γ U w (Post Γ v (some (.set (some (c, i)))) (.set l elems)) s (readSet (f + 1) e s wi w en (some (c, u)) (.set l elems)) := by
  refine step_readSet (q := some (c, u)) F wi en hP ?_ fun s1 P1 k1 => ?_
  · intro q hq
    simp only [names, List.mem_append, List.mem_map, Option.mem_toList] at hq
    rcases hq with ⟨n, hn, rfl⟩ | hq
    · exact hnm n hn
    · exact hN.names q hq
  · exact (L.setC wi hc (hu.keep k1) P1 hnm hN).ok

/-- What is not a set is not read by elements. -/
theorem setBy_leaf {o : Option (Class × Iter)} (F : Fine Γ e) (wi : Nat) (en : Bool) (hx : ∀ l elems, x ≠ .set l elems)
    (hP : Pre Γ w v s) (hn : ∀ q ∈ names x, Γ.names q) :
    Ok Γ U w (Post Γ v (some (.set o)) x) s (readSet f e s wi w en (some (c, u)) x) := by
  cases f with
  | zero => simp [readSet, Ok]
  | succ f => exact step_readSet (q := some (c, u)) F wi en hP hn fun s1 P1 _ => setC_leaf hx P1.known

theorem own_cls {m : Member} (hm : m.cls ≠ []) : own (.mem m) = [(m.cls, m.iter)] := by simp [own, hm]

theorem uses_own {cl : Name → Option Class} {r : Name × Iter} (h : r ∈ own p) : r ∈ uses cl p x := by
  cases x <;> simp [uses, h]

/-- `U`, and how the class of a member is used. -/
def Also (U : Name → Iter → Prop) (m : Member) : Name → Iter → Prop := fun n i => U n i ∨ n = m.cls ∧ i = m.iter

theorem step_mem {m : Member} (F : Fine Γ e) (L : Level Γ e f) (wi : Nat) (hP : Pre Γ w v s) (hN : Nice Γ e.classes U (.mem m) x) :
    OkW Γ U w (Post Γ v (memWant e.classes m) x) s (readMember (f + 1) e s wi w m x) := by
  simp only [readMember]
  by_cases hm : m.cls = []
  · rw [if_pos hm]
    cases hr : m.read with
    | any =>
      simp only [memWant, hm, hr, if_true]
      exact (L.any wi (by simp [kindOf, hm, hr]) hP hN).weak
    | expression =>
      simp only [memWant, hm, hr, if_true]
      exact (L.expr wi true none (by simp) hP hN).weak
    | set =>
      simp only [memWant, hm, hr, if_true]
      exact (L.set wi true (fun k => by simp [kindOf, hm, hr, elemAt]) hP hN).weak
    | cls =>
      simp only [memWant, hm, hr, if_true]
      exact (readClass_ok F hP hN.names (.inr rfl) wi).weak
    | _ =>
      simp only [memWant, hm, hr, if_true]
      exact (L.lit wi true _ hP hN).weak
  · rw [if_neg hm]
    cases hc : e.classes m.cls with
    | none => trivial
    | some c =>
      have hcn : e.classes c.name = some c := by rw [F.named _ _ hc]; exact hc
      have hown : ∀ i, U m.cls i → i = m.iter := fun i hi =>
        hN.uses (m.cls, m.iter) (uses_own (by rw [own_cls hm]; simp)) i hi
      simp only
      generalize hs1 : ({ s with useAs := fun n => if n = m.cls then m.iter else s.useAs n } : St) = s1
      have P1 : Pre Γ w v s1 := by subst hs1; exact ⟨⟨hP.known.hlp, hP.known.locals⟩, hP.noArity, hP.lvl⟩
      have k1 : Keep Γ U s s1 := by
        refine ⟨P1.known, fun n i hn hi => ?_⟩
        subst hs1
        simp only
        by_cases h : n = m.cls
        · rw [if_pos h]; subst h; exact (hown i hn).symm
        · rw [if_neg h]; exact hi
      have l1 : w = true → s1.lvl = s.lvl := fun _ => by subst hs1; rfl
      have u1 : s1.useAs m.cls = m.iter := by subst hs1; simp
      refine OkW.after k1 l1 ?_
      cases hr : m.read with
      | expression =>
        simp only [memWant, hm, hr, hc, if_false]
        exact (L.expr wi true (some c) (fun d hd => by cases hd; exact hcn) P1 hN).weak
      | set =>
        simp only [memWant, hm, hr, hc, if_false]
        have hk : kindOf e.classes (.mem m) = some (.set (some (c, m.iter))) := by simp [kindOf, hm, hr, hc]
        by_cases hx : ∃ l elems, x = .set l elems
        · obtain ⟨l, elems, rfl⟩ := hx
          have hK := hN.kids
          have hT := hN.tidy
          simp only [Tidy, reduceCtorEq, false_or] at hT
          rw [hk] at hK hT
          have hA : NiceAll Γ e.classes (Also U m) false (elemAt (some (.set (some (c, m.iter))))) 0 elems := by
            refine ⟨hK.names, hK.tidy, fun r hr' i hi => ?_⟩
            rcases hi with hi | ⟨h1, h2⟩
            · exact hK.uses r hr' i hi
            · rw [h2]; exact (hT.1 m rfl r hr' h1).symm
          exact ((L.setBy (u := .key m.cls) wi true hcn ⟨.inr ⟨rfl, rfl⟩, u1⟩ P1 (label_bound hN) hA).mono fun _ _ => .inl).weak
        · exact (setBy_leaf F wi true (fun l elems h => hx ⟨l, elems, h⟩) P1 hN.names).weak
      | cls =>
        simp only [memWant, hm, hr, hc, if_false]
        exact (readClass_ok F P1 hN.names (.inr rfl) wi).weak
      | _ => trivial

theorem RestFit.fits {h : Name} (F : Fine Γ e) (hr : RestFit Γ v c 0 args) (hc : e.classes h = some c) (ho : exprFits K c)
    (hl : ∀ n, l = some n → Γ.hlp = true → Γ.names (n, true)) : Fits Γ false v (some K) (.expr l h args) := by
  have hc' : Γ.classes h = some c := by rw [F.classes]; exact hc
  have hl' : lblFits Γ false K c l := fun n hn hh => .inl (hl n hn hh)
  rcases hr with ⟨h1, h2⟩ | ⟨init, rfl, h1, h2, h3⟩
  · simp only [Nat.zero_add] at h1 h2
    exact .expr hc' ho hl' h1 h2
  · simp only [Nat.zero_add] at h1 h2 h3
    exact .exprTail hc' ho hl' h1 h2 h3

theorem step_exprT (F : Fine Γ e) (L : Level Γ e f) (wi : Nat) (t : Ret)
    (hK : ∀ c, (t = .any ∨ c.type = .any ∨ c.type = t) → exprFits K c) (hP : Pre Γ w v s) (hN : Nice Γ e.classes U p x) :
    Ok Γ U w (Post Γ v (some K) x) s (exprT (f + 1) e s wi w t x) := by
  cases x with
  | expr l h args =>
    simp only [exprT]
    cases hh : head e t h with
    | none => exact ok_no hP.known
    | some c =>
      have hc : e.classes h = some c ∧ (t = .any ∨ c.type = .any ∨ c.type = t) := by
        unfold head at hh
        by_cases ht : t = .any
        · rw [if_pos ht] at hh
          refine ⟨?_, .inl ht⟩
          cases hs : e.sys h with
          | none => rw [hs] at hh; exact hh
          | some d => rw [hs] at hh; cases hh; exact F.sub h _ hs
        · rw [if_neg ht] at hh
          cases hd : e.classes h with
          | none => rw [hd] at hh; cases hh
          | some d =>
            rw [hd] at hh
            simp only at hh
            by_cases h2 : d.type = .any ∨ d.type = t
            · rw [if_pos h2] at hh; cases hh; exact ⟨rfl, .inr h2⟩
            · rw [if_neg h2] at hh; cases hh
      have hA := hN.args
      rw [hc.1] at hA
      simp only
      have main : ∀ s1, Keep Γ U s s1 → Pre Γ w v s1 → s1.lvl = s.lvl →
          Ok Γ U w (Post Γ v (some K) (.expr l h args)) s (exprBody f e s1 wi w c l args) := by
        intro s1 h1 h2 h3
        refine (OkB.after h1 (fun _ => h3) ((L.body wi l h2 hA).imp fun s' _ h => ?_)).ok
        exact .inr ⟨h.1, h.2.1.fits F hc.1 (hK c hc.2) h.2.2⟩
      cases l with
      | none => exact main s (.refl hP.known) hP rfl
      | some l =>
        simp only
        split
        · exact main s (.refl hP.known) hP rfl
        · have := local_keep (U := U) (i := wi) (t := c.type) hP.known (l := l) (.inr (hN.names _ (by simp [names])))
          exact main _ this ⟨this.known, hP.noArity, hP.lvl⟩ rfl
  | set l elems =>
    cases l with
    | none => exact ok_no hP.known
    | some l => exact ok_fail hP.known
  | cls l c => exact ok_fail hP.known
  | var n => exact ok_fail hP.known
  | _ => exact ok_no hP.known

theorem step_exprC (F : Fine Γ e) (L : Level Γ e f) (wi : Nat) (c : Class) (hc : e.classes c.name = some c) (hP : Pre Γ w v s)
    (hN : Nice Γ e.classes U p x) : Ok Γ U w (Post Γ v (some (.expr (some c))) x) s (exprC (f + 1) e s wi w c x) := by
  cases x with
  | expr l h args =>
    simp only [exprC]
    by_cases hh : h = c.name
    · rw [if_pos hh]
      subst hh
      have hA := hN.args
      rw [hc] at hA
      have main : ∀ s1, Keep Γ U s s1 → Pre Γ w v s1 → s1.lvl = s.lvl →
          Ok Γ U w (Post Γ v (some (.expr (some c))) (.expr l c.name args)) s (exprBody f e s1 wi w c l args) := by
        intro s1 h1 h2 h3
        refine (OkB.after h1 (fun _ => h3) ((L.body wi l h2 hA).imp fun s' _ h => ?_)).ok
        exact .inr ⟨h.1, h.2.1.fits F hc rfl h.2.2⟩
      cases l with
      | none => exact main s (.refl hP.known) hP rfl
      | some l =>
        have := local_keep (U := U) (i := wi) (t := c.type) hP.known (l := l) (.inr (hN.names _ (by simp [names])))
        exact main _ this ⟨this.known, hP.noArity, hP.lvl⟩ rfl
    · rw [if_neg hh]; exact ok_no hP.known
  | set l elems =>
    cases l with
    | none => exact ok_no hP.known
    | some l => exact ok_fail hP.known
  | cls l c => exact ok_fail hP.known
  | var n => exact ok_fail hP.known
  | _ => exact ok_no hP.known

theorem step_body (F : Fine Γ e) (L : Level Γ e f) (wi : Nat) (l : Option Name) (hP : Pre Γ w v s)
    (hN : NiceAll Γ e.classes U true (argAt (some c)) 0 args) :
    OkB Γ U w (fun s' => s'.noArity = false ∧ RestFit Γ v c 0 args ∧ ∀ n, l = some n → Γ.hlp = true → Γ.names (n, true)) s
      (exprBody (f + 1) e s wi w c l args) := by
  simp only [exprBody]
  cases w with
  | false =>
    simp only [Bool.false_eq_true, if_false]
    exact (L.tail 0 hP hN).imp fun _ hw _ => by cases hw
  | true =>
    simp only [if_true]
    have hp : ∀ a, Like s { app { s with code := Words.put s.code wi a } [c.atom] with ext := (app { s with code := Words.put s.code wi a } [c.atom]).ext + arity c } := by
      intro a
      have h1 := (put_like s (Words.put s.code wi a)).trans (app_like { s with code := Words.put s.code wi a } [c.atom])
      exact ⟨h1.hlp, h1.locals, h1.lvl, h1.noArity, h1.useAs⟩
    have go : ∀ a wi', (∀ n, l = some n → Γ.hlp = true → Γ.names (n, true)) →
        OkB Γ U true (fun s' => s'.noArity = false ∧ RestFit Γ v c 0 args ∧ ∀ n, l = some n → Γ.hlp = true → Γ.names (n, true)) s
          (exprTail f e { app { s with code := Words.put s.code wi a } [c.atom] with ext := (app { s with code := Words.put s.code wi a } [c.atom]).ext + arity c } wi' true c args) := by
      intro a wi' hl
      exact OkB.after ((hp a).keep hP.known) (fun _ => (hp a).lvl) ((L.tail wi' ((hp a).pre hP) hN).imp fun _ _ h => ⟨h.1, h.2, hl⟩)
    cases l with
    | none => exact go _ _ (by simp)
    | some n =>
      simp only
      by_cases hh : e.inHlp = true
      · rw [if_pos hh]
        by_cases h2 : s.hlp.idxOf n < s.hlp.length ∧ s.hlp.idxOf n < 255
        · rw [if_pos h2]
          refine go _ _ fun m hm _ => ?_
          cases hm
          exact hP.known.hlp _ (List.idxOf_lt_length_iff.1 h2.1)
        · rw [if_neg h2]; trivial
      · rw [if_neg hh]
        refine go _ _ fun m _ h => ?_
        rw [F.hlp] at h
        exact absurd h hh

theorem step_tail (L : Level Γ e f) (wi : Nat) (hP : Pre Γ w v s) (hN : NiceAll Γ e.classes U true (argAt (some c)) 0 args) :
    OkB Γ U w (fun s' => s'.noArity = false ∧ RestFit Γ v c 0 args) s (exprTail (f + 1) e s wi w c args) := by
  simp only [exprTail]
  generalize hs1 : (if w = true ∧ s.lvl > 0 then fill s wi (arity c) else s) = s1
  have hl : Like s s1 := by
    subst hs1
    split
    · exact fill_like _ _ _
    · exact .refl s
  have P1 := hl.pre hP
  have h := L.args (v := v) wi s1.lvl P1.known P1.noArity P1.lvl (fun _ => by simp) hN
  simp only [patOf, lastOf] at h
  refine OkB.after (hl.keep hP.known) (fun _ => hl.lvl) ?_
  revert h
  generalize exprArgs f e s1 wi w c _ _ 0 args = o
  intro h
  cases o with
  | yes t => exact ⟨h.1, fun hw => h.2 hw⟩
  | no t => exact h
  | err => trivial

theorem pat_eq (F : Fine Γ e) (c : Class) (k : Nat) : Γ.pat c k = (e.inHlp || (decide (k = 0) && isPattern e c)) := by
  simp only [Ctx.pat, isPattern, F.classes, F.hlp]

theorem fits_tail {K : Option Want} : ¬ Fits Γ false v K .tail := by
  intro h
  cases h with
  | lit hx _ => cases hx

theorem RestFit.cons {n : Nat} (hx : Fits Γ false (v || Γ.pat c n) (argWant Γ.classes c n) x) (h : RestFit Γ v c (n + 1) args) :
    RestFit Γ v c n (x :: args) := by
  have key : ∀ l : List Syn, (∀ (k : Nat) y, l[k]? = some y → Fits Γ false (v || Γ.pat c (n + 1 + k)) (argWant Γ.classes c (n + 1 + k)) y) →
      ∀ (k : Nat) y, (x :: l)[k]? = some y → Fits Γ false (v || Γ.pat c (n + k)) (argWant Γ.classes c (n + k)) y := by
    intro l hl k y hy
    cases k with
    | zero => simp only [List.getElem?_cons_zero, Option.some.injEq] at hy; subst hy; exact hx
    | succ k =>
      rw [show n + (k + 1) = n + 1 + k by omega]
      exact hl k y (by simpa using hy)
  rcases h with ⟨h1, h2⟩ | ⟨init, rfl, h1, h2, h3⟩
  · exact .inl ⟨by simp only [List.length_cons]; omega, key _ h2⟩
  · refine .inr ⟨x :: init, rfl, by simp only [List.length_cons]; omega, ?_, key _ h3⟩
    rw [List.length_cons, show n + (init.length + 1) = n + 1 + init.length by omega]
    exact h2

/-- After the last member. -/
theorem args_nil {n : Nat} (wi base : Nat) (hK : Known Γ s) (h0 : w = true → s.noArity = true → 0 < n)
    (hl : w = true → s.lvl = base + if patOf e c = true ∧ 0 < n ∧ n ≤ lastOf e c then 1 else 0) :
    match exprArgs f e s wi w c (patOf e c) (lastOf e c) n [] with
    | .yes s' => Keep Γ U s s' ∧ (w = true → s'.lvl = base ∧ s'.noArity = false ∧ (s.noArity = false → n = arity c))
    | .no s' => Keep Γ U s s' ∧ w = false
    | .err => True := by
  cases f with
  | zero => simp [exprArgs]
  | succ f =>
    simp only [exprArgs]
    by_cases hn : s.noArity = true
    · rw [if_pos hn]
      refine ⟨⟨⟨hK.hlp, hK.locals⟩, fun _ _ _ h => h⟩, fun hw => ⟨?_, rfl, by rw [hn]; simp⟩⟩
      have := hl hw
      simp only
      by_cases h1 : patOf e c = true ∧ 0 < n ∧ n ≤ lastOf e c
      · rw [if_pos h1] at this
        rw [if_pos ⟨h1.1, by omega, by omega⟩]; omega
      · rw [if_neg h1] at this
        by_cases h2 : patOf e c = true ∧ lastOf e c > 0 ∧ n < lastOf e c + 1
        · rw [if_pos h2]
          exact absurd ⟨h2.1, h0 hw hn, by omega⟩ h1
        · rw [if_neg h2]; omega
    · rw [if_neg hn]
      by_cases h1 : n = arity c
      · rw [if_pos h1]
        refine ⟨.refl hK, fun hw => ⟨?_, by simpa using hn, fun _ => h1⟩⟩
        have := hl hw
        rw [this, if_neg]
        · omega
        · rintro ⟨h2, h3, h4⟩
          simp only [lastOf] at h4
          split at h4
          · split at h4 <;> omega
          · omega
      · rw [if_neg h1]
        cases w with
        | true => trivial
        | false => exact ⟨.refl hK, rfl⟩

theorem step_args {n : Nat} (F : Fine Γ e) (L : Level Γ e f) (wi base : Nat) (hK : Known Γ s) (hn : w = true → s.noArity = false)
    (hb : w = true → base > 0 → v = true)
    (hl : w = true → s.lvl = base + if patOf e c = true ∧ 0 < n ∧ n ≤ lastOf e c then 1 else 0)
    (hN : NiceAll Γ e.classes U true (argAt (some c)) n args) :
    match exprArgs (f + 1) e s wi w c (patOf e c) (lastOf e c) n args with
    | .yes s' => Keep Γ U s s' ∧ (w = true → s'.lvl = base ∧ s'.noArity = false ∧ RestFit Γ v c n args)
    | .no s' => Keep Γ U s s' ∧ w = false
    | .err => True := by
  cases args with
  | nil =>
    have := args_nil (f := f + 1) (U := U) wi base hK (fun hw h => by rw [hn hw] at h; cases h) hl
    revert this
    generalize exprArgs (f + 1) e s wi w c _ _ n [] = o
    intro h
    cases o with
    | yes t => exact ⟨h.1, fun hw => ⟨(h.2 hw).1, (h.2 hw).2.1, .inl ⟨by simp only [List.length_nil, Nat.add_zero]; exact (h.2 hw).2.2 (hn hw), by simp⟩⟩⟩
    | no t => exact h
    | err => trivial
  | cons x r =>
    simp only [exprArgs]
    by_cases h1 : n ≥ arity c
    · rw [if_pos h1]
      cases w with
      | true => trivial
      | false => exact ⟨.refl hK, rfl⟩
    · rw [if_neg h1]
      cases hm : c.members[n]? with
      | none => trivial
      | some m =>
        simp only
        have hpos : argAt (some c) n = .mem m := by simp [argAt, hm]
        have hw' : memWant e.classes m = argWant Γ.classes c n := by simp [argWant, hm, F.classes]
        have hx := hN.head
        rw [hpos] at hx
        generalize hs1 : (if patOf e c = true ∧ n = 0 then { s with lvl := s.lvl + 1 } else s : St) = s1
        have hlk : s1.hlp = s.hlp ∧ s1.locals = s.locals ∧ s1.noArity = s.noArity ∧ s1.useAs = s.useAs := by
          subst hs1; split <;> exact ⟨rfl, rfl, rfl, rfl⟩
        have hl1 : w = true → s1.lvl = base + if patOf e c = true ∧ n ≤ lastOf e c then 1 else 0 := by
          intro hw
          have := hl hw
          subst hs1
          by_cases h2 : patOf e c = true ∧ n = 0
          · rw [if_pos h2, if_pos ⟨h2.1, by omega⟩]
            simp only
            rw [this, if_neg (by rintro ⟨_, h3, _⟩; omega)]
          · rw [if_neg h2, this]
            congr 1
            have : (patOf e c = true ∧ 0 < n ∧ n ≤ lastOf e c) ↔ (patOf e c = true ∧ n ≤ lastOf e c) :=
              ⟨fun h => ⟨h.1, h.2.2⟩, fun h => ⟨h.1, by
                by_contra h0
                exact h2 ⟨h.1, by omega⟩, h.2⟩⟩
            simp only [this]
        have k1 : Known Γ s1 := ⟨by rw [hlk.1]; exact hK.hlp, by rw [hlk.2.1]; exact hK.locals⟩
        have P1 : Pre Γ w (v || Γ.pat c n) s1 := by
          refine ⟨k1, fun hw => by rw [hlk.2.2.1]; exact hn hw, fun hw hlt => ?_⟩
          rw [pat_eq F]
          have h2 := hl1 hw
          cases hh : e.inHlp with
          | true => simp
          | false =>
            cases hp : isPattern e c with
            | false =>
              rw [if_neg (by simp [patOf, hh, hp])] at h2
              rw [hb hw (by omega)]; rfl
            | true =>
              by_cases h3 : n = 0
              · simp [h3]
              · rw [if_neg (by rintro ⟨_, h4⟩; simp only [lastOf, hh, Bool.false_eq_true, if_false] at h4; omega)] at h2
                rw [hb hw (by omega)]; rfl
        have hM := L.mem (U := U) (wi + n) P1 hx
        have ks1 : Keep Γ U s s1 := ⟨k1, fun n i _ h => by rw [hlk.2.2.2]; exact h⟩
        cases hr : readMember f e s1 (wi + n) w m x with
        | err => trivial
        | no s2 =>
          rw [hr] at hM
          simp only
          cases w with
          | true => trivial
          | false => exact ⟨ks1.trans hM, rfl⟩
        | yes s2 =>
          rw [hr] at hM
          simp only
          generalize hs3 : (if patOf e c = true ∧ n = lastOf e c then { s2 with lvl := s2.lvl - 1 } else s2 : St) = s3
          have hlk3 : s3.hlp = s2.hlp ∧ s3.locals = s2.locals ∧ s3.noArity = s2.noArity ∧ s3.useAs = s2.useAs := by
            subst hs3; split <;> exact ⟨rfl, rfl, rfl, rfl⟩
          have k3 : Known Γ s3 := ⟨by rw [hlk3.1]; exact hM.1.known.hlp, by rw [hlk3.2.1]; exact hM.1.known.locals⟩
          have ks3 : Keep Γ U s s3 := (ks1.trans hM.1).trans ⟨k3, fun n i _ h => by rw [hlk3.2.2.2]; exact h⟩
          have hl3 : w = true → s3.lvl = base + if patOf e c = true ∧ 0 < n + 1 ∧ n + 1 ≤ lastOf e c then 1 else 0 := by
            intro hw
            have a1 := hl1 hw
            have a2 := (hM.2 hw).1
            subst hs3
            by_cases h2 : patOf e c = true ∧ n = lastOf e c
            · rw [if_pos h2, if_neg (by rintro ⟨_, _, h3⟩; omega)]
              rw [if_pos ⟨h2.1, by omega⟩] at a1
              simp only
              omega
            · rw [if_neg h2, a2, a1]
              congr 1
              have : (patOf e c = true ∧ n ≤ lastOf e c) ↔ (patOf e c = true ∧ 0 < n + 1 ∧ n + 1 ≤ lastOf e c) :=
                ⟨fun h => ⟨h.1, by omega, by
                  by_contra h0
                  exact h2 ⟨h.1, by omega⟩⟩, fun h => ⟨h.1, by omega⟩⟩
              simp only [this]
          by_cases hxt : x = .tail
          · subst hxt
            obtain ⟨_, rfl⟩ := hN.tail
            have := args_nil (f := f) (U := U) wi base k3 (fun _ _ => Nat.succ_pos n) hl3
            revert this
            generalize exprArgs f e s3 wi w c _ _ (n + 1) [] = o
            intro h
            cases o with
            | yes t =>
              refine ⟨ks3.trans h.1, fun hw => ⟨(h.2 hw).1, (h.2 hw).2.1, .inr ⟨[], rfl, by simp only [List.length_nil]; omega, ?_, by simp⟩⟩⟩
              rcases (hM.2 hw).2 with h4 | h4
              · exact h4.2
              · exact absurd h4.2 fits_tail
            | no t => exact ⟨ks3.trans h.1, h.2⟩
            | err => trivial
          · have h5 := fun hw => (hM.2 hw).2.fits hxt
            have := L.args (v := v) wi base k3 (fun hw => by rw [hlk3.2.2.1]; exact (h5 hw).1) hb hl3 hN.rest
            revert this
            generalize exprArgs f e s3 wi w c _ _ (n + 1) r = o
            intro h
            cases o with
            | yes t =>
              refine ⟨ks3.trans h.1, fun hw => ⟨(h.2 hw).1, (h.2 hw).2.1, ?_⟩⟩
              refine (h.2 hw).2.2.cons ?_
              rw [← hw']
              exact (h5 hw).2
            | no t => exact ⟨ks3.trans h.1, h.2⟩
            | err => trivial

theorem step_anyElems {m : Nat} {elems : List Syn} (L : Level Γ e f) (wi n : Nat) (hP : Pre Γ w v s)
    (hN : NiceAll Γ e.classes U false (fun _ => .any) m elems) :
    OkB Γ U w (fun s' => s'.noArity = false ∧ (elems = [] → n ≠ 0) ∧
      ∀ (k : Nat) x, elems[k]? = some x → Fits Γ false v (some .any) x) s (anyElems (f + 1) e s wi w n elems) := by
  cases elems with
  | nil =>
    simp only [anyElems]
    by_cases h : n = 0
    · rw [if_pos h]; exact okB_fail hP.known
    · rw [if_neg h]; exact ⟨.refl hP.known, fun hw => ⟨rfl, hP.noArity hw, fun _ => h, by simp⟩⟩
  | cons x r =>
    simp only [anyElems]
    have h := L.any (wi + n) (p := .any) rfl hP hN.head
    cases hr : readAny f e s (wi + n) w x with
    | err => trivial
    | no s1 =>
      rw [hr] at h
      simp only
      cases w with
      | true => trivial
      | false => exact ⟨h.1, rfl⟩
    | yes s1 =>
      rw [hr] at h
      have h5 := fun hw => (h.2 hw).2.fits (not_tail hN)
      have P1 : Pre Γ w v s1 := ⟨h.1.known, fun hw => (h5 hw).1, fun hw => by rw [(h.2 hw).1]; exact hP.lvl hw⟩
      refine OkB.after h.1 (fun hw => (h.2 hw).1) ((L.anyElems wi (n + 1) P1 hN.rest).imp fun s' hw h' => ?_)
      refine ⟨h'.1, by simp, fun k y hy => ?_⟩
      cases k with
      | zero => simp only [List.getElem?_cons_zero, Option.some.injEq] at hy; subst hy; exact (h5 hw).2
      | succ k => exact h'.2.2 k y (by simpa using hy)

theorem step_count {m n : Nat} {elems : List Syn} (L : Level Γ e f) (hK : Known Γ s)
    (hN : NiceAll Γ e.classes U false (fun _ => .any) m elems) (h : setCount (f + 1) e s elems = some (n, s')) : Keep Γ U s s' := by
  cases elems with
  | nil => simp only [setCount, Option.some.injEq, Prod.mk.injEq] at h; rw [← h.2]; exact .refl hK
  | cons x r =>
    simp only [setCount] at h
    have h1 := L.any (w := false) (v := false) 0 (p := .any) rfl ⟨hK, by simp, by simp⟩ hN.head
    cases hr : readAny f e s 0 false x with
    | err => rw [hr] at h; cases h
    | no s1 =>
      rw [hr] at h h1
      simp only [Option.some.injEq, Prod.mk.injEq] at h
      rw [← h.2]; exact h1.1
    | yes s1 =>
      rw [hr] at h h1
      simp only [Option.map_eq_some_iff, Prod.mk.injEq] at h
      obtain ⟨q, h2, h3, h4⟩ := h
      rw [← h4]
      exact h1.1.trans (L.count (n := q.1) h1.1.known hN.rest h2)

/-- The elements of a set, after they were counted. -/
theorem restore_pre {s1 : St} {ws : List Word} {x : Nat} (hP : Pre Γ true v s) (h : Keep Γ U s s') (h1 : s1 = app (restore s s') ws) :
    Pre Γ true v { s1 with ext := x } ∧ Keep Γ U s { s1 with ext := x } ∧ s1.lvl = s.lvl := by
  have hl := app_like (restore s s') ws
  rw [← h1] at hl
  have hk : Known Γ { s1 with ext := x } := ⟨by simp only [hl.hlp]; exact h.known.hlp, by simp only [hl.locals]; exact h.known.locals⟩
  exact ⟨⟨hk, fun hw => by simp only [hl.noArity]; exact hP.noArity hw, fun hw => by simp only [hl.lvl]; exact hP.lvl hw⟩,
    ⟨hk, fun n i hn hi => by simp only [hl.useAs]; exact h.use n i hn hi⟩, hl.lvl⟩

theorem label_step {i : Nat} {t : Ret} (hP : Pre Γ w v s) (hl : ∀ n, l = some n → Γ.names (n, false)) :
    ∃ s1, (match l with | some l => addLocal s l i t | none => s) = s1 ∧ Keep Γ U s s1 ∧ Pre Γ w v s1 ∧ s1.lvl = s.lvl := by
  cases l with
  | none => exact ⟨s, rfl, .refl hP.known, hP, rfl⟩
  | some l =>
    have := local_keep (U := U) (i := i) (t := t) hP.known (l := l) (.inr (hl l rfl))
    exact ⟨_, rfl, this, ⟨this.known, hP.noArity, hP.lvl⟩, rfl⟩

theorem step_setU {elems : List Syn} (L : Level Γ e f) (wi : Nat) (hP : Pre Γ w v s) (hl : ∀ n, l = some n → Γ.names (n, false))
    (hN : NiceAll Γ e.classes U false (fun _ => .any) 0 elems) :
    OkB Γ U w (Post Γ v (some (.set none)) (.set l elems)) s (setU (f + 1) e s wi w (.set l elems)) := by
  have main : ∀ s1, Keep Γ U s s1 → Pre Γ w v s1 → s1.lvl = s.lvl → OkB Γ U w (Post Γ v (some (.set none)) (.set l elems)) s
      (if w then
        match setCount f e { s1 with code := Words.put s1.code wi (iPointer (BitVec.ofNat 16 s1.ext)) } elems with
        | none => .err
        | some (n, s') =>
          anyElems f e { app (restore s1 s') [Atom.set (BitVec.ofNat 8 n)] with ext := (app (restore s1 s') [Atom.set (BitVec.ofNat 8 n)]).ext + n % 256 } (s1.ext + 1) w 0 elems
      else anyElems f e s1 0 w 0 elems) := by
    intro s1 k1 P1 l1
    refine OkB.after k1 (fun _ => l1) ?_
    cases w with
    | false =>
      simp only [Bool.false_eq_true, if_false]
      exact (L.anyElems 0 0 P1 hN).imp fun _ hw => by cases hw
    | true =>
      simp only [if_true]
      have hp := put_like s1 (Words.put s1.code wi (iPointer (BitVec.ofNat 16 s1.ext)))
      cases hc : setCount f e { s1 with code := Words.put s1.code wi (iPointer (BitVec.ofNat 16 s1.ext)) } elems with
      | none => trivial
      | some q =>
        obtain ⟨n, s'⟩ := q
        have hk := (hp.keep P1.known).trans (L.count (hp.known P1.known) hN hc)
        obtain ⟨P2, k2, l2⟩ := restore_pre (x := (app (restore s1 s') [Atom.set (BitVec.ofNat 8 n)]).ext + n % 256) P1 hk rfl
        refine OkB.after k2 (fun _ => l2) ((L.anyElems _ 0 P2 hN).imp fun _ _ h => ?_)
        exact .inr ⟨h.1, .setU (.inr rfl) (fun h0 => h.2.1 h0 rfl) h.2.2⟩
  obtain ⟨s1, h1, h2, h3, h4⟩ := label_step (U := U) (i := wi) (t := .set) hP hl
  have := main s1 h2 h3 h4
  subst h1
  simp only [setU]
  cases l with
  | none => exact this
  | some l => exact this

end Verif.Typed
