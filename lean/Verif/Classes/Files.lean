import Verif.Classes.Sim
import Mathlib.Data.List.Induction

namespace Verif.Classes
open Verif.Source Verif.Macro

/-! ## What is to be found for each line -/

/-- The kind of the objects of a class. -/
def KindOf (n : Name) (isSet : Bool) (k : Atom.StructKind) : Prop :=
  if isSet then k = .sset
  else if n = "grp".toList then k = .group
  else if n = "ipgm".toList then k = .ipgm
  else if n = "icpp_pgm".toList then k = .icpp
  else if n = "cst".toList then k = .cst
  else if n = "mdl".toList then k = .mdl
  else ("mk.".toList <:+: n → k = .marker) ∧ (¬ "mk.".toList <:+: n → k = .object)

/-- Classes whose objects have views and markers. -/
def IsSys (isSet : Bool) (as : List Tree) : Prop :=
  isSet = false ∧ ∃ b ∈ as.head?, b.cmd = "_obj".toList ∨ b.cmd = "_grp".toList ∨ b.cmd = "_fact".toList

/-- The return types of operators. -/
def retOf : List (Name × Ret) :=
  [(":nb".toList, .number), (":ts".toList, .timestamp), (":us".toList, .duration), (":bl".toList, .boolean),
    (":st".toList, .string), (":nid".toList, .node), (":did".toList, .device), (":fid".toList, .function), (":[]".toList, .set)]

/-- The metadata has what the line defines. -/
def Line.Correct (root : List Tree) (tpl : Templates) (a : All) : Line → Prop
  | .cls n b as => ∃ c k op, a.reg.classes n = some c ∧ c.name = n ∧ c.type = .any ∧ KindOf n b k ∧
      Atom.load c.atom = some (.struct_ k op (BitVec.ofNat 8 c.members.length)) ∧
      (∀ vs, Means root tpl false [] as vs → Shown a.reg.classes c.members vs.flatten) ∧
      (IsSys b as → a.sys n = some c) ∧ (¬ IsSys b as → a.sys n = none)
  | .op n as ty => ∃ c op, a.reg.classes n = some c ∧ c.name = n ∧
      ((∃ x ∈ retOf, x.1 = ty ∧ c.type = x.2) ∨ ((∀ x ∈ retOf, x.1 ≠ ty) ∧ c.type = .any)) ∧
      Atom.load c.atom = some (.struct_ .operator op (BitVec.ofNat 8 as.length)) ∧
      (∀ vs, Means root tpl false [] as vs → Shown a.reg.classes c.members vs.flatten)
  | .fn n _ => ∃ c op, a.reg.classes n = some c ∧ c.name = n ∧ Atom.load c.atom = some (.deviceFunction op) ∧
      c.members = [⟨.set, [], [], .cls⟩] ∧ c.type = .any
  | _ => True

/-! ## Small steps -/

theorem has_iff (s : Name) : ∀ l : Name, has s l = true ↔ s <:+: l
  | [] => by
    cases s with
    | nil => simp [has]
    | cons c s => simp [has]
  | c :: l => by
    simp only [has, Bool.or_eq_true, List.isPrefixOf_iff_prefix, has_iff s l, List.infix_cons_iff]

theorem has_written {n : Name} (h : '[' ∉ n) (b : Bool) : has "[]".toList (written n b) = b := by
  cases b with
  | true =>
    rw [has_iff]; exact ⟨n, [], by simp [written]⟩
  | false =>
    cases hh : has "[]".toList (written n false) with
    | false => rfl
    | true =>
      rw [has_iff] at hh
      exact absurd (hh.subset (List.mem_cons_self)) h

theorem className_written {n : Name} (h : '[' ∉ n) (b : Bool) : className (written n b) = n := by
  unfold className
  rw [has_written h b]
  cases b with
  | false => rfl
  | true =>
    show (n ++ ['[', ']']).dropLast.dropLast = n
    have : n ++ ['[', ']'] = (n ++ ['[']) ++ [']'] := by simp
    rw [this, List.dropLast_concat, List.dropLast_concat]

theorem kind_atom (n : Name) (op : BitVec 16) (x : BitVec 8) :
    ∃ k, KindOf n false k ∧ Atom.load (classAtom n op x) = some (.struct_ k (Atom.low12 op) x) := by
  unfold KindOf classAtom
  simp only [Bool.false_eq_true, if_false]
  split
  · exact ⟨_, rfl, Atom.load_store (.struct_ .group op x)⟩
  split
  · exact ⟨_, rfl, Atom.load_store (.struct_ .ipgm op x)⟩
  split
  · exact ⟨_, rfl, Atom.load_store (.struct_ .icpp op x)⟩
  split
  · exact ⟨_, rfl, Atom.load_store (.struct_ .cst op x)⟩
  split
  · exact ⟨_, rfl, Atom.load_store (.struct_ .mdl op x)⟩
  split
  · rename_i h
    exact ⟨.marker, ⟨fun _ => rfl, fun h' => absurd ((has_iff _ _).1 h) h'⟩, Atom.load_store (.struct_ .marker op x)⟩
  · rename_i h
    exact ⟨.object, ⟨fun h' => absurd ((has_iff _ _).2 h') h, fun _ => rfl⟩, Atom.load_store (.struct_ .object op x)⟩

theorem returnType_ok (ty : Name) :
    (∃ x ∈ retOf, x.1 = ty ∧ returnType ty = x.2) ∨ ((∀ x ∈ retOf, x.1 ≠ ty) ∧ returnType ty = .any) := by
  by_cases h : ∃ x ∈ retOf, x.1 = ty
  · obtain ⟨x, hx, rfl⟩ := h
    refine Or.inl ⟨x, hx, rfl, ?_⟩
    simp only [retOf, List.mem_cons, List.not_mem_nil, or_false] at hx
    rcases hx with rfl | rfl | rfl | rfl | rfl | rfl | rfl | rfl | rfl <;> rfl
  · have h' : ∀ x ∈ retOf, x.1 ≠ ty := fun x hx e => h ⟨x, hx, e⟩
    refine Or.inr ⟨h', ?_⟩
    have hm : ∀ x ∈ retOf, ty ≠ x.1 := fun x hx e => h' x hx e.symm
    simp only [retOf, List.mem_cons, List.not_mem_nil, or_false, forall_eq_or_imp, forall_eq] at hm
    obtain ⟨h0, h1, h2, h3, h4, h5, h6, h7, h8⟩ := hm
    unfold returnType
    rw [if_neg h0, if_neg h1, if_neg h2, if_neg h3, if_neg h4, if_neg h5, if_neg h6, if_neg h7, if_neg h8]

/-! ## The lines one by one -/

/-- What the arguments of a line must be. -/
def Line.Meant (root : List Tree) (tpl : Templates) : Line → Prop
  | .cls _ _ as => ∃ vs, Means root tpl false [] as vs
  | .op _ as _ => ∃ vs, Means root tpl false [] as vs
  | _ => True

/-- See `Good`. -/
def Line.Good (tpl : Templates) : Line → Prop
  | .cls _ _ as => Classes.Good tpl false as
  | .op _ as _ => Classes.Good tpl false as
  | _ => True

/-- The names taken after lines. -/
def takenBy (ls : List Line) (n : Name) : Prop := n ∈ "xpr".toList :: "type".toList :: ls.flatMap Line.name

/-- The names of sets that are templates. -/
def bases (ls : List Line) (n : Name) : Prop := ∃ as, Line.template n true as ∈ ls

/-- Reading the arguments of a line. -/
theorem args_run {root : List Tree} {tpl : Templates} {taken B : Name → Prop} (hargs : Args root)
    (hB : ∀ b, B b → NoDigit b ∧ ∀ m, taken m → ∀ i, m ≠ b ++ digits i)
    (ht : ∀ c body n, tpl c = some body → body.cmd = n ++ "[]".toList → B n)
    {as : List Tree} (hm : ∃ vs, Means root tpl false [] as vs) (hg : Good tpl false as) (r : Reg) (hr : Clear taken B r) :
    ∃ f m S r', (∀ g, f ≤ g → getMembers root tpl g false [] r as = some (m, S, r')) ∧ Ext B r r' ∧
      ∀ vs, Means root tpl false [] as vs → Shown r'.classes m vs.flatten := by
  obtain ⟨vs, hv⟩ := hm
  obtain ⟨f, m, S, r', e, x, s, _⟩ := (runs hargs hB ht hv hg).all [] [] r (by simp [Stack]) hr
  refine ⟨f, m, S, r', fun g hg => (mono root tpl f).2.1 g _ _ _ _ _ hg e, x, fun ws hw => ?_⟩
  obtain ⟨f', m', S', r2, e', x', s', _⟩ := (runs hargs hB ht hw hg).all [] [] r (by simp [Stack]) hr
  have e1 := (mono root tpl f).2.1 (max f f') _ _ _ _ _ (Nat.le_max_left _ _) e
  have e2 := (mono root tpl f').2.1 (max f f') _ _ _ _ _ (Nat.le_max_right _ _) e'
  rw [e1] at e2
  obtain ⟨rfl, rfl, rfl⟩ : m = m' ∧ S = S' ∧ r' = r2 := by simpa using e2
  exact s'

/-- What stays when more is defined. -/
structure Grows (a a' : All) (new : Name → Prop) : Prop where
  classes : ∀ n c, a.reg.classes n = some c → a'.reg.classes n = some c
  sys : ∀ n, ¬ new n → a'.sys n = a.sys n

theorem Line.Correct.mono {root : List Tree} {tpl : Templates} {a a' : All} {new : Name → Prop} (h : Grows a a' new) :
    ∀ {l : Line}, (∀ n ∈ l.name, ¬ new n) → l.Correct root tpl a → l.Correct root tpl a'
  | .cls n b as, hn, ⟨c, k, o, h1, h2, h3, h4, h5, h6, h7, h8⟩ =>
    ⟨c, k, o, h.classes _ _ h1, h2, h3, h4, h5, fun vs hv => (h6 vs hv).mono h.classes,
      fun hs => (h.sys n (hn n (by simp [Line.name]))).trans (h7 hs),
      fun hs => (h.sys n (hn n (by simp [Line.name]))).trans (h8 hs)⟩
  | .op _ _ _, _, ⟨c, o, h1, h2, h3, h4, h5⟩ =>
    ⟨c, o, h.classes _ _ h1, h2, h3, h4, fun vs hv => (h5 vs hv).mono h.classes⟩
  | .fn _ _, _, ⟨c, o, h1, h2, h3, h4, h5⟩ => ⟨c, o, h.classes _ _ h1, h2, h3, h4, h5⟩
  | .template _ _ _, _, _ => trivial
  | .other _, _, _ => trivial

/-- The state after some lines. -/
structure After (root : List Tree) (ls done : List Line) (a : All) : Prop where
  tpl : a.tpl = templatesOf done
  clear : Clear (takenBy done) (bases ls) a.reg
  sys : ∀ n, ¬ takenBy done n → a.sys n = none
  correct : ∀ d l more, done = d ++ l :: more → l.Correct root (templatesOf d) a

theorem templatesOf_concat (d : List Line) (l : Line) : templatesOf (d ++ [l]) = l.templates (templatesOf d) := by
  simp [templatesOf]

theorem templatesOf_mem : ∀ (d : List Line) {c body}, templatesOf d c = some body →
    ∃ b as, Line.template c b as ∈ d ∧ body = .mk .struct [] (written c b) [] as := by
  intro d
  induction d using List.reverseRecOn with
  | nil => intro c body h; simp [templatesOf] at h
  | append_singleton d l ih =>
    intro c body h
    rw [templatesOf_concat] at h
    have old : templatesOf d c = some body → ∃ b as, Line.template c b as ∈ d ++ [l] ∧
        body = .mk .struct [] (written c b) [] as := fun h => by
      obtain ⟨b, as, h1, h2⟩ := ih h
      exact ⟨b, as, List.mem_append_left _ h1, h2⟩
    cases l with
    | template n b as =>
      simp only [Line.templates, Macro.set] at h
      by_cases he : c = n
      · subst he
        rw [if_pos rfl] at h
        exact ⟨b, as, by simp, (Option.some.inj h).symm⟩
      · rw [if_neg he] at h; exact old h
    | cls _ _ _ => exact old h
    | op _ _ _ => exact old h
    | fn _ _ => exact old h
    | other _ => exact old h

theorem takenBy_concat (d : List Line) (l : Line) (n : Name) : takenBy (d ++ [l]) n ↔ takenBy d n ∨ n ∈ l.name := by
  simp [takenBy, or_assoc]

/-- A class under a name that was free. -/
theorem add_step {taken taken' B : Name → Prop} {r : Reg} {c : Class} (r' : Reg) (hcl : r'.classes = Macro.set r.classes c.name (some c))
    (hid : r'.lastId = r.lastId) (hr : Clear taken B r) (ht : ∀ n, taken n → taken' n) (hn : taken' c.name)
    (hfree : r.classes c.name = none) :
    Clear taken' B r' ∧ (∀ n x, r.classes n = some x → r'.classes n = some x) ∧ r'.classes c.name = some c := by
  refine ⟨?_, ?_, ?_⟩
  · intro n x hx
    rw [hcl] at hx
    simp only [Macro.set] at hx
    by_cases he : n = c.name
    · exact Or.inl (he ▸ hn)
    · rw [if_neg he] at hx
      rcases hr n x hx with h | h
      · exact Or.inl (ht n h)
      · exact Or.inr (hid ▸ h)
  · intro n x hx
    rw [hcl]; simp only [Macro.set]
    rw [if_neg]
    · exact hx
    · rintro rfl; rw [hfree] at hx; exact absurd hx (by simp)
  · rw [hcl]; simp [Macro.set]

section
variable {root : List Tree} {ls : List Line}

theorem free_name {done : List Line} {B : Name → Prop} {r : Reg} (hr : Clear (takenBy done) B r) {n : Name} (hn : ¬ takenBy done n)
    (hb : ∀ b, B b → ∀ i, n ≠ b ++ digits i) : r.classes n = none := by
  cases hc : r.classes n with
  | none => rfl
  | some c =>
    rcases hr n c hc with h | ⟨b, i, h1, _, h3⟩
    · exact absurd h hn
    · exact absurd h3 (hb b h1 i)

/-- One line. -/
theorem line_step (hargs : Args root) (hd : Distinct ls) {done rest : List Line} {l : Line} (hls : ls = done ++ l :: rest)
    (hps : ∀ k ∈ ls, k.Proper) (hm : l.Meant root (templatesOf done)) (hg : l.Good (templatesOf done)) {a : All}
    (ha : After root ls done a) :
    ∃ f a', (∀ g, f ≤ g → define root g a l.tree = some a') ∧ After root ls (done ++ [l]) a' := by
  have hnew : ∀ n ∈ l.name, ¬ takenBy done n ∧ ∀ b, bases ls b → ∀ i, n ≠ b ++ digits i := by
    intro n hn
    have hin : n ∈ "xpr".toList :: "type".toList :: ls.flatMap Line.name := by
      rw [hls]; simp only [List.flatMap_append, List.flatMap_cons, List.mem_cons, List.mem_append]
      exact Or.inr (Or.inr (Or.inr (Or.inl hn)))
    refine ⟨fun ht => ?_, fun b ⟨as, hb⟩ i => (hd.2 b as hb).2 n hin i⟩
    have hnd := hd.1
    have : "xpr".toList :: "type".toList :: ls.flatMap Line.name =
        ("xpr".toList :: "type".toList :: done.flatMap Line.name) ++ (l.name ++ rest.flatMap Line.name) := by
      rw [hls]; simp
    rw [this] at hnd
    exact (List.nodup_append.1 hnd).2.2 n ht n (List.mem_append_left _ hn) rfl
  have hB : ∀ b, bases ls b → NoDigit b ∧ ∀ m, takenBy done m → ∀ i, m ≠ b ++ digits i := by
    rintro b ⟨as, hb⟩
    refine ⟨(hd.2 b as hb).1, fun m hm i => (hd.2 b as hb).2 m ?_ i⟩
    unfold takenBy at hm
    rw [hls]
    simp only [List.mem_cons, List.flatMap_append, List.mem_append] at hm ⊢
    rcases hm with h | h | h
    · exact Or.inl h
    · exact Or.inr (Or.inl h)
    · exact Or.inr (Or.inr (Or.inl h))
  have ht : ∀ c body n, templatesOf done c = some body → body.cmd = n ++ "[]".toList → bases ls n := by
    intro c body n hc hb
    obtain ⟨b, as, h1, rfl⟩ := templatesOf_mem done hc
    have hin : Line.template c b as ∈ ls := by rw [hls]; exact List.mem_append_left _ h1
    obtain ⟨hcn, _⟩ := hps _ hin
    cases b with
    | true =>
      obtain rfl : c = n := by simpa [Tree.cmd, written] using hb
      exact ⟨as, hin⟩
    | false =>
      exfalso
      have : c = n ++ ['[', ']'] := by simpa [Tree.cmd, written] using hb
      exact hcn (by rw [this]; simp)
  have hp : l.Proper := hps l (by rw [hls]; simp)
  -- what was correct stays
  have keep : ∀ a', Grows a a' (· ∈ l.name) → l.Correct root (templatesOf done) a' →
      ∀ d k more, done ++ [l] = d ++ k :: more → k.Correct root (templatesOf d) a' := by
    intro a' hgr hl d k more he
    rcases List.eq_nil_or_concat more with rfl | ⟨more', z, rfl⟩
    · obtain ⟨rfl, he'⟩ := List.append_inj' he rfl
      obtain rfl := (List.cons.inj he').1
      exact hl
    · have he' : done ++ [l] = (d ++ k :: more') ++ [z] := by rw [he]; simp
      obtain ⟨e1, _⟩ := List.append_inj' he' rfl
      refine Line.Correct.mono hgr (fun n hn hn' => ?_) (ha.correct d k more' e1)
      refine (hnew n hn').1 ?_
      unfold takenBy; rw [e1]
      simp only [List.flatMap_append, List.flatMap_cons, List.mem_cons, List.mem_append]
      exact Or.inr (Or.inr (Or.inr (Or.inl hn)))
  cases l with
  | other t =>
    refine ⟨0, a, fun g _ => ?_, ?_⟩
    · show define root g a t = some a
      unfold define
      by_cases hk : t.kind = .directive
      · obtain ⟨h1, h2, h3, h4⟩ := hp hk
        rw [if_neg (by simpa using hk)]
        cases hta : t.args with
        | nil => exact absurd hta h1
        | cons s more => simp only [h2, h3, h4, if_false]
      · rw [if_pos hk]
    · refine ⟨by rw [templatesOf_concat]; exact ha.tpl, ?_, ?_, keep a ⟨fun _ _ h => h, fun _ _ => rfl⟩ trivial⟩
      · intro n c hc
        rcases ha.clear n c hc with h | h
        · exact Or.inl ((takenBy_concat _ _ _).2 (Or.inl h))
        · exact Or.inr h
      · exact fun n hn => ha.sys n fun h => hn ((takenBy_concat _ _ _).2 (Or.inl h))
  | template n b as =>
    obtain ⟨h1, h2⟩ := hp
    refine ⟨0, { a with tpl := Macro.set a.tpl n (some (.mk .struct [] (written n b) [] as)) }, fun g _ => ?_, ?_⟩
    · have : templates as = true := (templates_iff as).2 h2
      show (if templates as = true then _ else _) = _
      rw [if_pos this]
      simp only [Tree.cmd, className_written h1]
    · refine ⟨by rw [templatesOf_concat]; simp only [Line.templates, ha.tpl], ?_, ?_,
        keep _ ⟨fun _ _ h => h, fun _ _ => rfl⟩ trivial⟩
      · intro n c hc
        rcases ha.clear n c hc with h | h
        · exact Or.inl ((takenBy_concat _ _ _).2 (Or.inl h))
        · exact Or.inr h
      · exact fun n hn => ha.sys n fun h => hn ((takenBy_concat _ _ _).2 (Or.inl h))
  | cls n b as =>
    obtain ⟨h1, h2, h3⟩ := hp
    obtain ⟨f, m, S, r', e, x, s⟩ := args_run hargs hB ht hm hg a.reg ha.clear
    obtain ⟨hn1, hn2⟩ := hnew n (by simp [Line.name])
    have hcl := ha.clear.ext x
    have hfree := free_name hcl hn1 hn2
    have htk : ∀ k, takenBy done k → takenBy (done ++ [.cls n b as]) k := fun k h => (takenBy_concat _ _ _).2 (Or.inl h)
    have hself : takenBy (done ++ [.cls n b as]) n := (takenBy_concat _ _ _).2 (Or.inr (by simp [Line.name]))
    have htm : templates as = false := by
      cases hh : templates as with
      | false => rfl
      | true => have := (templates_iff as).1 hh; omega
    have run : ∀ g, f ≤ g → define root g a (Line.cls n b as).tree = (if b then
        some { a with reg := r'.add ⟨Atom.sSet r'.opcode (BitVec.ofNat 8 m.length), n, m, .any⟩ }
      else as.head?.map fun z =>
        let c : Class := ⟨classAtom n r'.opcode (BitVec.ofNat 8 m.length), n, m, .any⟩
        if z.cmd = "_obj".toList ∨ z.cmd = "_grp".toList ∨ z.cmd = "_fact".toList then
          { a with reg := r'.add c, sys := Macro.set a.sys n (some c) }
        else { a with reg := r'.add c }) := by
      intro g hg'
      show (if templates as = true then _ else defineClass root g a _) = _
      rw [htm, if_neg (by simp)]
      unfold defineClass
      simp only [Tree.args, Tree.cmd, className_written h1, has_written h1]
      rw [ha.tpl, e g hg']
      rfl
    have hgood : ∀ (c : Class) (a' : All), c.name = n → a'.reg = r'.add c → a'.tpl = a.tpl →
        (∀ k, k ≠ n → a'.sys k = a.sys k) →
        ((Line.cls n b as).Correct root (templatesOf done) a') → After root ls (done ++ [.cls n b as]) a' := by
      intro c a' hcn hreg htpl hsys hcor
      obtain ⟨k1, k2, k3⟩ := add_step (c := c) (taken' := takenBy (done ++ [.cls n b as])) (r'.add c) rfl rfl hcl htk
        (by rw [hcn]; exact hself) (by rw [hcn]; exact hfree)
      refine ⟨?_, by rw [hreg]; exact k1, ?_, keep a' ⟨fun k z hk => ?_, fun k hk => ?_⟩ hcor⟩
      · rw [templatesOf_concat, htpl]; exact ha.tpl
      · intro k hk
        have : k ≠ n := by rintro rfl; exact hk hself
        rw [hsys k this]
        exact ha.sys k fun h => hk (htk k h)
      · rw [hreg]; exact k2 k z (x.2.1 k z hk)
      · refine hsys k fun he => hk (by simp [Line.name, he])
    have hshow : ∀ (c : Class), c.name = n → c.members = m → ∀ vs, Means root (templatesOf done) false [] as vs →
        Shown (r'.add c).classes c.members vs.flatten := by
      intro c hcn hcm vs hv
      obtain ⟨_, k2, _⟩ := add_step (c := c) (taken' := takenBy (done ++ [.cls n b as])) (r'.add c) rfl rfl hcl htk
        (by rw [hcn]; exact hself) (by rw [hcn]; exact hfree)
      rw [hcm]
      exact (s vs hv).mono k2
    cases b with
    | true =>
      refine ⟨f, _, run, hgood _ _ rfl rfl rfl (fun _ _ => rfl) ?_⟩
      refine ⟨_, .sset, Atom.low12 r'.opcode, ?_, rfl, rfl, rfl, ?_, hshow _ rfl rfl, ?_, ?_⟩
      · simp [Reg.add, Macro.set]
      · exact Atom.load_store (.struct_ .sset r'.opcode (BitVec.ofNat 8 m.length))
      · exact fun h => absurd h.1 (by simp)
      · exact fun _ => ha.sys n hn1
    | false =>
      cases has : as with
      | nil => exact absurd has (h3 rfl)
      | cons z more =>
        subst has
        obtain ⟨k, hk1, hk2⟩ := kind_atom n r'.opcode (BitVec.ofNat 8 m.length)
        obtain ⟨c, hc⟩ : ∃ c : Class, c = ⟨classAtom n r'.opcode (BitVec.ofNat 8 m.length), n, m, .any⟩ := ⟨_, rfl⟩
        have hc1 : c.name = n := by rw [hc]
        have hc2 : c.type = .any := by rw [hc]
        have hc3 : c.members = m := by rw [hc]
        have hc4 : Atom.load c.atom = some (.struct_ k (Atom.low12 r'.opcode) (BitVec.ofNat 8 c.members.length)) := by
          rw [hc]; exact hk2
        have hc5 : (r'.add c).classes n = some c := by simp [Reg.add, Macro.set, hc1]
        have hc6 := hshow c hc1 hc3
        have run' := run
        simp only [Bool.false_eq_true, if_false, List.head?_cons, Option.map_some, ← hc] at run'
        by_cases hz : z.cmd = "_obj".toList ∨ z.cmd = "_grp".toList ∨ z.cmd = "_fact".toList
        · have hs1 : Macro.set a.sys n (some c) n = some c := by simp [Macro.set]
          refine ⟨f, { a with reg := r'.add c, sys := Macro.set a.sys n (some c) },
            fun g hg' => ?_, hgood c _ hc1 rfl rfl (fun k hk => ?_) ⟨c, k, _, hc5, hc1, hc2, hk1, hc4, hc6, ?_, ?_⟩⟩
          · rw [run' g hg', if_pos hz]
          · exact if_neg hk
          · exact fun _ => hs1
          · exact fun h => absurd ⟨rfl, z, rfl, hz⟩ h
        · refine ⟨f, { a with reg := r'.add c },
            fun g hg' => ?_, hgood c _ hc1 rfl rfl (fun k hk => rfl) ⟨c, k, _, hc5, hc1, hc2, hk1, hc4, hc6, ?_, ?_⟩⟩
          · rw [run' g hg', if_neg hz]
          · rintro ⟨_, y, hy, hy'⟩
            have hy2 : z = y := Option.some.inj hy
            rw [← hy2] at hy'
            exact absurd hy' hz
          · exact fun _ => ha.sys n hn1
  | op n as ty =>
    obtain ⟨f, m, S, r', e, x, s⟩ := args_run hargs hB ht hm hg a.reg ha.clear
    obtain ⟨hn1, hn2⟩ := hnew n (by simp [Line.name])
    have hcl := ha.clear.ext x
    have hfree := free_name hcl hn1 hn2
    have htk : ∀ k, takenBy done k → takenBy (done ++ [.op n as ty]) k := fun k h => (takenBy_concat _ _ _).2 (Or.inl h)
    have hself : takenBy (done ++ [.op n as ty]) n := (takenBy_concat _ _ _).2 (Or.inr (by simp [Line.name]))
    let c : Class := ⟨Atom.operator (BitVec.ofNat 16 a.operators.length) (BitVec.ofNat 8 as.length), n, m, returnType ty⟩
    obtain ⟨k1, k2, k3⟩ := add_step (c := c) (taken' := takenBy (done ++ [.op n as ty]))
      { r' with classes := Macro.set r'.classes n (some c) } rfl rfl hcl htk hself hfree
    refine ⟨f, { a with reg := { r' with classes := Macro.set r'.classes n (some c) }, operators := a.operators ++ [n] },
      fun g hg' => ?_, ⟨?_, k1, ?_, keep _ ⟨fun k z hk => k2 k z (x.2.1 k z hk), fun _ _ => rfl⟩ ?_⟩⟩
    · show defineOperator root g a _ = _
      unfold defineOperator
      simp only [Tree.args]
      rw [ha.tpl, e g hg']; rfl
    · rw [templatesOf_concat]; exact ha.tpl
    · exact fun k hk => ha.sys k fun h => hk (htk k h)
    · exact ⟨c, Atom.low12 (BitVec.ofNat 16 a.operators.length), k3, rfl, returnType_ok ty,
        Atom.load_store (.struct_ .operator (BitVec.ofNat 16 a.operators.length) (BitVec.ofNat 8 as.length)),
        fun vs hv => (s vs hv).mono k2⟩
  | fn n as =>
    obtain ⟨hn1, hn2⟩ := hnew n (by simp [Line.name])
    have hfree := free_name ha.clear hn1 hn2
    have htk : ∀ k, takenBy done k → takenBy (done ++ [.fn n as]) k := fun k h => (takenBy_concat _ _ _).2 (Or.inl h)
    have hself : takenBy (done ++ [.fn n as]) n := (takenBy_concat _ _ _).2 (Or.inr (by simp [Line.name]))
    let c : Class := ⟨Atom.deviceFunction (BitVec.ofNat 16 a.functions.length), n, [⟨.set, [], [], .cls⟩], .any⟩
    obtain ⟨k1, k2, k3⟩ := add_step (c := c) (taken' := takenBy (done ++ [.fn n as]))
      { a.reg with classes := Macro.set a.reg.classes n (some c) } rfl rfl ha.clear htk hself hfree
    refine ⟨0, { a with reg := { a.reg with classes := Macro.set a.reg.classes n (some c) }, functions := a.functions ++ [n] },
      fun g _ => rfl, ⟨?_, k1, ?_, keep _ ⟨k2, fun _ _ => rfl⟩ ?_⟩⟩
    · rw [templatesOf_concat]; exact ha.tpl
    · exact fun k hk => ha.sys k fun h => hk (htk k h)
    · exact ⟨c, _, k3, rfl, Atom.load_store (.deviceFunction (BitVec.ofNat 16 a.functions.length)), rfl, rfl⟩

/-- All lines. -/
theorem all_lines (hargs : Args root) (hd : Distinct ls) (hps : ∀ k ∈ ls, k.Proper)
    (hm : ∀ d l more, ls = d ++ l :: more → l.Meant root (templatesOf d))
    (hg : ∀ d l more, ls = d ++ l :: more → l.Good (templatesOf d)) :
    ∀ (rest done : List Line) (a : All), ls = done ++ rest → After root ls done a →
      ∃ f a', (∀ g, f ≤ g → (rest.map Line.tree).foldlM (define root g) a = some a') ∧ After root ls ls a'
  | [], done, a, hls, ha => by
    rw [List.append_nil] at hls
    subst hls
    exact ⟨0, a, fun _ _ => rfl, ha⟩
  | l :: rest, done, a, hls, ha => by
    obtain ⟨f, a1, h1, ha1⟩ := line_step hargs hd hls hps (hm _ _ _ hls) (hg _ _ _ hls) ha
    obtain ⟨f', a2, h2, ha2⟩ := all_lines hargs hd hps hm hg rest (done ++ [l]) a1 (by rw [hls]; simp) ha1
    refine ⟨max f f', a2, fun g hg' => ?_, ha2⟩
    simp only [List.map_cons, List.foldlM_cons]
    rw [h1 g (Nat.le_trans (Nat.le_max_left _ _) hg')]
    exact h2 g (Nat.le_trans (Nat.le_max_right _ _) hg')

theorem after_start (id : Nat) : After root ls [] (start id) := by
  refine ⟨rfl, ?_, fun _ _ => rfl, fun d l more he => (by simp at he)⟩
  intro n c hc
  refine Or.inl ?_
  simp only [start, Macro.set] at hc
  by_cases h1 : n = "type".toList
  · simp [takenBy, h1]
  · rw [if_neg h1] at hc
    by_cases h2 : n = "xpr".toList
    · simp [takenBy, h2]
    · rw [if_neg h2] at hc; exact absurd hc (by simp)
end

end Verif.Classes
