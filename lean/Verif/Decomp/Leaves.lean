import Verif.Decomp.Lemmas

/-! # Elements without parts are written as they were meant -/
namespace Verif.Decomp
open Verif.Macro Verif.Classes Verif.Atom Verif.Compile

/-- The language of what is written: objects under their labels, variables under their numbers. -/
structure Corr (T : Meta) (ρ : Name → Name) (L L' : Lang) : Prop where
  classes : L'.classes = L.classes
  sys : L'.sys = L.sys
  inHlp : L'.inHlp = L.inHlp
  vars : L'.vars = L.vars
  pat : L'.pat = L.pat
  objs : L'.objs = L.objs
  globals : ∀ x o t, L.globals x = some (o, t) → ∃ n t', T.names o = some n ∧ L'.globals n = some (o, t') ∧ L.classes n = none
  free : ∀ k, L'.globals (varName k) = none ∧ L.classes (varName k) = none
  names : ∀ x ∈ L.names, ρ x ∈ L'.names

/-- Variables are written under their numbers. -/
def Numbered (H : List Name) (ρ : Name → Name) : Prop := ∀ (k : Nat) x, H[k]? = some x → ρ x = varName k

/-- The variables that have occurred. -/
def Known (L : Lang) (D : List Name) : Prop := ∀ x ∈ D, L.globals x = none ∧ L.classes x = none ∧ x ∈ L.names

/-- They have occurred in what is written. -/
def Under (ρ : Name → Name) (D E : List Name) : Prop := ∀ x ∈ D, ρ x ∈ E

variable {T : Meta} {code : List Word} {H : List Name} {R : List Nat} {ρ : Name → Name} {L L' : Lang} {P : Limits}

theorem any_word {i : Nat} {a : Word} {fl : Fl} {close : Bool} {wvi : Nat} {x : Syn} {d : BitVec 8} (h : code[i]? = some a)
    (hd : getDescriptor a = d)
    (h0 : 128 ≤ d.toNat) (h1 : d ≠ 0x86) (h2 : d ≠ 0x8D) (h3 : d ≠ 0x84) (h4 : d ≠ 0x8E) (h5 : d ≠ 0x83)
    (hx : atomSyn T R close a = some x) (f : Nat) : writeAny (f + 3) T code R fl i close false wvi = some ([x], fl, false) := by
  rw [any_atom (f + 2) close wvi h hd h0 h1 h2 h3 h4 h5, hx]; rfl

theorem leaf_shown (hT : T.ref = 0) (C : Corr T ρ L L') (hN : Numbered H ρ) (hP : P.close false) {K D x t D1 i}
    (h : Leaf P L K D x t D1) (hr : Reads code H R i t) (hD : Known L D) {E : List Name} (hE : Under ρ D E) {fl : Fl} {cmd last close : Bool} {wvi : Nat}
    (hp : plain T (ctx L) fl.post cmd last x) (hc : close = true → last = true) :
    ∃ x' E1, (∀ f, writeAny (f + 3) T code R fl i close false wvi = some ([x'], fl, false)) ∧
      Leaf P L' K E x' (ren ρ t) E1 ∧ (Known L D1 ∧ Under ρ D1 E1) ∧ ∀ q, uses L.classes q x' = uses L.classes q x := by
  have hc' : last = false → close = false := by
    intro h; cases close with
    | false => rfl
    | true => rw [hc rfl] at h; exact h
  cases h with
  | nilw h =>
    rename_i n
    rw [plain] at hp
    rcases hp with rfl | rfl | rfl | rfl | rfl
    all_goals
      cases hr with
      | word hw => ?_
    · exact ⟨_, E, any_word hw (d := 0x80) (by decide) (by decide) (by decide) (by decide) (by decide) (by decide) (by decide) rfl,
        .nilw h, ⟨hD, hE⟩, fun _ => rfl⟩
    · refine ⟨.nilw .forever, E, fun f => ?_, .nilw h, ⟨hD, hE⟩, fun _ => rfl⟩
      rw [any_float (f + 2) close wvi hw (by decide)]; rfl
    · exact ⟨_, E, any_word hw (d := 0x81) (by decide) (by decide) (by decide) (by decide) (by decide) (by decide) (by decide) rfl,
        .nilw h, ⟨hD, hE⟩, fun _ => rfl⟩
    · exact ⟨_, E, any_word hw (d := 0xA2) (by decide) (by decide) (by decide) (by decide) (by decide) (by decide) (by decide) rfl,
        .nilw h, ⟨hD, hE⟩, fun _ => rfl⟩
    · exact ⟨_, E, any_word hw (d := 0xA1) (by decide) (by decide) (by decide) (by decide) (by decide) (by decide) (by decide) rfl,
        .nilw h, ⟨hD, hE⟩, fun _ => rfl⟩
  | empty h =>
    cases hr with
    | node hj hij hi ha _ _ =>
      refine ⟨.empty, E, fun f => ?_, .empty h, ⟨hD, hE⟩, fun _ => rfl⟩
      rw [any_iptr (f + 2) close wvi hj hi, ptr_plain f wvi hij ha (d := 0xC1) (by decide) (.inr (.inr (.inr ⟨rfl, by decide⟩)))]
      simp only [plainSyn, cell_eq ha]
      rfl
  | this h =>
    cases hr with
    | word hw =>
      exact ⟨_, E, any_word hw (d := 0x90) (by decide) (by decide) (by decide) (by decide) (by decide) (by decide) (by decide) rfl,
        .this h, ⟨hD, hE⟩, fun _ => rfl⟩
  | num h =>
    rename_i b
    rw [plain] at hp
    cases hr with
    | word hw =>
      have hf : isFloat (Atom.float b) = true := by rw [isFloat_eq, float_toNat]; have := b.isLt; simp; omega
      by_cases hi : Atom.float b = plusInfinity
      · refine ⟨.nilw .forever, E, fun f => ?_, ?_, ⟨hD, hE⟩, fun _ => rfl⟩
        · rw [any_float (f + 2) close wvi hw hf, number, if_neg hp.1, if_pos hi]; rfl
        · rw [hi]
          refine .nilw ?_
          match K, h with
          | .any, _ => rfl
          | .lit _, h => cases h; rfl
      · obtain ⟨b', h1, h2⟩ := hp.2.resolve_left hi
        refine ⟨.num b', E, fun f => ?_, ?_, ⟨hD, hE⟩, fun _ => rfl⟩
        · rw [any_float (f + 2) close wvi hw hf, number, if_neg hp.1, if_neg hi, h1]; rfl
        · rw [← h2]; exact .num h
  | ts h =>
    rename_i v
    rw [plain] at hp
    cases hr with
    | time hj hij hi ha hv =>
      refine ⟨.ts v, E, fun f => ?_, .ts h, ⟨hD, hE⟩, fun _ => rfl⟩
      rw [any_iptr (f + 2) close wvi hj hi, ptr_plain f wvi hij ha (d := 0xC7) (by decide) (.inr (.inl rfl))]
      have h1 : getDescriptor timestamp = 0xC7 := by decide
      have h2 : readsAsNil timestamp = false := by decide
      simp only [plainSyn, cell_eq ha, h1, h2, hv, hT, Option.bind_some, ts_syn hp]
      rfl
  | dur h =>
    rename_i v
    rw [plain] at hp
    cases hr with
    | time hj hij hi ha hv =>
      refine ⟨.dur v, E, fun f => ?_, .dur h, ⟨hD, hE⟩, fun _ => rfl⟩
      rw [any_iptr (f + 2) close wvi hj hi, ptr_plain f wvi hij ha (d := 0xD0) (by decide) (.inr (.inr (.inl rfl)))]
      have h1 : getDescriptor duration = 0xD0 := by decide
      simp only [plainSyn, cell_eq ha, h1, hv, Option.bind_some, dur_syn hp]
      rfl
  | str h hl hs =>
    rename_i s
    rw [plain] at hp
    cases hr with
    | str hj hij hi _ ha hb =>
      have hw := string_toNat (BitVec.ofNat 8 s.length)
      have h3 := (BitVec.ofNat 8 s.length).isLt
      have h4 := stringBlocks_toNat (BitVec.ofNat 8 s.length)
      have h1 : getDescriptor (Atom.string (BitVec.ofNat 8 s.length)) = 0xC6 := by
        apply BitVec.eq_of_toNat_eq
        rw [getDescriptor_toNat, hw]; simp only [BitVec.ofNat_eq_ofNat, BitVec.toNat_ofNat] at *; omega
      have h2 : readsAsNil (Atom.string (BitVec.ofNat 8 s.length)) = false := by
        have hne : ∀ w : Word, w.toNat ∉ List.range' 0xC6000000 0x10000 → True := fun _ _ => trivial
        simp only [readsAsNil, Bool.or_eq_false_iff, beq_eq_false_iff_ne, ne_eq, ← BitVec.toNat_inj, hw]
        simp only [BitVec.ofNat_eq_ofNat, BitVec.toNat_ofNat] at *
        omega
      refine ⟨.str s, E, fun f => ?_, .str h hl hs, ⟨hD, hE⟩, fun _ => rfl⟩
      rw [any_iptr (f + 2) close wvi hj hi, ptr_plain f wvi hij ha (d := 0xC6) h1 (.inl rfl)]
      simp only [plainSyn, cell_eq ha, h1, h2, string_syn hp.1 hp.2.1 hp.2.2 ha hb]
      rfl
  | bool h =>
    rename_i b
    cases hr with
    | word hw =>
      refine ⟨.bool b, E, any_word hw (d := 0x81) (by cases b <;> decide) (by decide) (by decide) (by decide) (by decide) (by decide)
        (by decide) ?_, .bool h, ⟨hD, hE⟩, fun _ => rfl⟩
      cases b <;> rfl
  | node h hd =>
    rename_i w
    rw [plain] at hp
    cases hr with
    | word hw =>
      refine ⟨.hex w, E, any_word hw hd (by decide) (by decide) (by decide) (by decide) (by decide) (by decide) ?_, .node h hd, ⟨hD, hE⟩,
        fun _ => rfl⟩
      have h2 : readsAsNil w = false := by
        simp only [readsAsNil, Bool.or_eq_false_iff, beq_eq_false_iff_ne, ne_eq]
        refine ⟨⟨⟨⟨⟨⟨⟨?_, ?_⟩, ?_⟩, ?_⟩, hp⟩, ?_⟩, ?_⟩, ?_⟩ <;> rintro rfl <;> exact absurd hd (by decide)
      simp only [atomSyn, hd, h2]
      rfl
  | device h hd =>
    rename_i w
    cases hr with
    | word hw =>
      by_cases hu : w = undefinedDevice
      · subst hu
        refine ⟨.nilw .did, E, any_word hw hd (by decide) (by decide) (by decide) (by decide) (by decide) (by decide) rfl, ?_, ⟨hD, hE⟩,
          fun _ => rfl⟩
        refine .nilw ?_
        match K, h with
        | .any, _ => rfl
        | .lit _, h => cases h; rfl
      · refine ⟨.hex w, E, any_word hw hd (by decide) (by decide) (by decide) (by decide) (by decide) (by decide) ?_, .device h hd, ⟨hD, hE⟩,
          fun _ => rfl⟩
        have h2 : readsAsNil w = false := by
          simp only [readsAsNil, Bool.or_eq_false_iff, beq_eq_false_iff_ne, ne_eq]
          refine ⟨⟨⟨⟨⟨⟨⟨?_, ?_⟩, ?_⟩, ?_⟩, ?_⟩, hu⟩, ?_⟩, ?_⟩ <;> rintro rfl <;> exact absurd hd (by decide)
        simp only [atomSyn, hd, h2]
        rfl
  | wild hv =>
    cases hr with
    | word hw =>
      exact ⟨_, E, any_word hw (d := 0x82) (by decide) (by decide) (by decide) (by decide) (by decide) (by decide) (by decide) rfl,
        .wild (by rw [C.vars]; exact hv), ⟨hD, hE⟩, fun _ => rfl⟩
  | var hv hg hc hx =>
    rename_i x
    rw [plain] at hp
    cases hr with
    | var hk hi hx' =>
      have hρ := hN _ _ hx'
      refine ⟨.var (ρ x), ρ x :: E, fun f => ?_, ?_, ⟨?_, ?_⟩, fun _ => rfl⟩
      · rw [any_var (f + 2) close wvi hk hi, hp, hρ]; rfl
      · refine .var (by rw [C.vars]; exact hv) ?_ ?_ (C.names x hx)
        · rw [hρ]; exact (C.free _).1
        · rw [hρ, C.classes]; exact (C.free _).2
      · intro y hy
        rcases List.mem_cons.1 hy with rfl | hy
        · exact ⟨hg, hc, hx⟩
        · exact hD y hy
      · intro y hy
        rcases List.mem_cons.1 hy with rfl | hy
        · exact List.mem_cons_self
        · exact List.mem_cons_of_mem _ (hE y hy)
  | nameVar hx hb =>
    rename_i x b
    obtain ⟨hg, hcl, hn⟩ := hD x hx
    rw [plain] at hp
    have hp2 := hp.2 hg hcl
    cases hr with
    | var hk hi hx' =>
      have hρ := hN _ _ hx'
      by_cases hpost : fl.post = true
      · rw [if_pos hpost] at hp2
        refine ⟨.var (ρ x), ρ x :: E, fun f => ?_, ?_, ⟨hD, fun y hy => List.mem_cons_of_mem _ (hE y hy)⟩, fun _ => rfl⟩
        · rw [any_var (f + 2) close wvi hk hi, hpost, hρ]; rfl
        · refine .var (by rw [C.vars]; exact hp2) ?_ ?_ (C.names x hn)
          · rw [hρ]; exact (C.free _).1
          · rw [hρ, C.classes]; exact (C.free _).2
      · rw [if_neg hpost] at hp2
        refine ⟨.name (ρ x) false, E, fun f => ?_, .nameVar (hE x hx) hP, ⟨hD, hE⟩, fun _ => rfl⟩
        rw [any_var (f + 2) close wvi hk hi, hρ, hc' hp2]; simp [hpost]
  | nameObj h hg hcl ho =>
    rename_i x b o ty
    cases hr with
    | obj hk hi ho' =>
      rename_i k
      obtain ⟨n, t', h1, h2, h3⟩ := C.globals x _ _ hg
      refine ⟨.name n close, E, any_word hi (rptr_desc k).2 (by decide) (by decide) (by decide) (by decide) (by decide) (by decide) ?_,
        .nameObj h h2 (by rw [C.classes]; exact h3) (by rw [C.objs]; exact ho), ⟨hD, hE⟩, fun _ => rfl⟩
      have h4 : (asIndex (rPointer (BitVec.ofNat 16 k))).toNat = k := ptr_index hk
      simp only [atomSyn, (rptr_desc k).2, h4, ho', Option.getD_some, h1]
      rfl
  | nameFn h hcl hb =>
    rename_i x b c
    rw [plain] at hp
    obtain ⟨hl, hd, hf⟩ := hp.1 c hcl
    cases hr with
    | word hw =>
      by_cases hu : c.atom = undefinedDeviceFunction
      · refine ⟨.nilw .fid, E, any_word hw hd (by decide) (by decide) (by decide) (by decide) (by decide) (by decide) ?_, ?_, ⟨hD, hE⟩,
          fun _ => rfl⟩
        · rw [hu]; rfl
        · rw [hu]
          refine .nilw ?_
          match K, h with
          | .any, _ => rfl
          | .lit _, h => cases h; rfl
      · refine ⟨.name x false, E, any_word hw hd (by decide) (by decide) (by decide) (by decide) (by decide) (by decide) ?_,
          .nameFn h (by rw [C.classes]; exact hcl) hP, ⟨hD, hE⟩, fun _ => rfl⟩
        have h2 : readsAsNil c.atom = false := by
          simp only [readsAsNil, Bool.or_eq_false_iff, beq_eq_false_iff_ne, ne_eq]
          refine ⟨⟨⟨⟨⟨⟨⟨?_, ?_⟩, ?_⟩, ?_⟩, ?_⟩, ?_⟩, hu⟩, ?_⟩ <;> intro he <;> rw [he] at hd <;> exact absurd hd (by decide)
        simp only [atomSyn, hd, h2, hf, hc' hl]
        rfl

end Verif.Decomp
