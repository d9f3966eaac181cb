import Verif.Tcp.Data
import Verif.Screen.Props
/-!
# Commands (C150)
-/
namespace Verif.Tcp
open Verif.Atom Verif.Observe Verif.Screen

/-- C150 as far as it holds: an answer that a command was not executed is right, and so is one that it was, unless the
object of the command is none the device knows; and commands are sent whose opcodes are less than 256, that are
described once, and whose values are not identifiers of entities, as long as no other message of setup was handled. -/
def C150_weak : Prop :=
  ∀ (E : Env) (s0 : Setup) (w0 w : World) (es : List Event), Opcodes E →
    start E s0 = some w0 → run E w0 es = some w → Clear (setups s0 w) →
    (∀ (o : Obj) (a : Answer) (d : Dev) (ms : List Sent), w.dev.commands.get "ready" ≠ some (function o) →
      eject w.dev o = some (a, d, ms) → d = w.dev ∧ (a = .null → ms = []) ∧
        (a ≠ .null → a = .same ∧ ((∃ m, ms = [m]) ∨ (ms = [] ∧
          ∃ r, o.refs[(asIndex (at_ o ((asIndex (at_ o 2)).toNat + 1))).toNat]? = some r ∧
            ∀ p ∈ w.dev.entities, p.2 ≠ r)))) ∧
    (NoSetup w →
     ∀ (name : String) (op : BitVec 16) (x : Meta) (o : Obj) (a e : Nat), name ≠ "ready" →
      E.opcode name = some op → op.toNat < 256 → (∃ i, (name, i) ∈ s0.commands) → (name, x) ∈ s0.descriptions →
      (∀ x', (name, x') ∈ s0.descriptions → x' = x) → x.type ≠ .commId →
      entityOf E [s0] x.entity = some e →
      (Command o op a 0 e → eject w.dev o = some (.same, w.dev, [.command x.entity x.ident .none])) ∧
      ∀ ws v, Command o op a 1 e → Argument o x a ws → Carries E [s0] o x.type ws v →
        eject w.dev o = some (.same, w.dev, [.command x.entity x.ident v]))

theorem eject_truth {d d' : Dev} {o : Obj} {a : Answer} {ms : List Sent}
    (hr : d.commands.get "ready" ≠ some (function o)) (h : eject d o = some (a, d', ms)) :
    d' = d ∧ (a = .null → ms = []) ∧ (a ≠ .null → a = .same ∧ ((∃ m, ms = [m]) ∨ (ms = [] ∧
      ∃ r, o.refs[(asIndex (at_ o ((asIndex (at_ o 2)).toNat + 1))).toNat]? = some r ∧ ∀ p ∈ d.entities, p.2 ≠ r))) := by
  unfold eject at h
  rw [if_neg hr] at h
  split at h
  · cases h; exact ⟨rfl, fun _ => rfl, fun h => absurd rfl h⟩
  · simp only [perform, Option.bind_eq_some_iff] at h
    obtain ⟨r, hr, h⟩ := h
    split at h
    · simp only [Option.map_eq_some_iff] at h
      obtain ⟨m, _, h⟩ := h
      split at h
      · cases h; exact ⟨rfl, fun _ => rfl, fun h => absurd rfl h⟩
      · cases h; exact ⟨rfl, (fun h => by cases h), fun _ => ⟨rfl, .inl ⟨_, rfl⟩⟩⟩
    · rename_i hn
      cases h
      refine ⟨rfl, (fun h => by cases h), fun _ => ⟨rfl, .inr ⟨rfl, r, hr, fun p hp he => hn ?_⟩⟩⟩
      rw [List.any_eq_true]
      exact ⟨p, hp, by simpa using he⟩

theorem at_of {o : Obj} {i : Nat} {w : Word} (h : o.code[i]? = some w) : at_ o i = w := by
  unfold at_; rw [h]; rfl

/-- The table of commands: the names said, and `ready`. -/
theorem commands_get {E : Env} {s : Setup} {n : String} (h : (∃ i, (n, i) ∈ s.commands) ∨ n = "ready") :
    (opcodes E (setup Dev.init s).1.commands).get n = some ((E.opcode n).getD 0xFFFF) := by
  rw [opcodes_get]
  have : ((setup Dev.init s).1.commands.get n).isSome = true := by
    show ((Map.insert _ "ready" 0xFFFF).get n).isSome = true
    rw [Map.get_insert]
    by_cases hn : n = "ready"
    · rw [if_pos hn]; rfl
    · rw [if_neg hn]
      rcases h with h | h
      · exact (putCommands_table s.commands _ _ n).2 (.inl h)
      · exact absurd h hn
  obtain ⟨y, hy⟩ := Option.isSome_iff_exists.1 this
  rw [hy]; rfl

theorem opcodes_mem {E : Env} {m : Map String (BitVec 16)} {p : String × BitVec 16} (h : p ∈ opcodes E m) :
    p.2 = (E.opcode p.1).getD 0xFFFF := by
  unfold opcodes at h
  rw [List.mem_map] at h
  obtain ⟨q, _, rfl⟩ := h
  rfl

theorem opcode_of_getD {E : Env} {n : String} {op : BitVec 16} (h : (E.opcode n).getD 0xFFFF = op) (ho : op.toNat < 256) :
    E.opcode n = some op := by
  cases hn : E.opcode n with
  | none => rw [hn] at h; subst h; exact absurd ho (by decide)
  | some x => rw [hn] at h; exact congrArg some h

/-- A command by its opcode. -/
theorem eject_perform {E : Env} {s : Setup} {d : Dev} (hO : Opcodes E) (H : Knows E s d) {name : String} {op : BitVec 16}
    {o : Obj} (hn : name ≠ "ready") (ho : E.opcode name = some op) (hop : op.toNat < 256)
    (hc : ∃ i, (name, i) ∈ s.commands) (hf : function o = op) : eject d o = perform d name o := by
  unfold eject
  rw [H.commands, commands_get (.inr rfl), hf]
  rw [if_neg]
  · have hm : (name, op) ∈ opcodes E (setup Dev.init s).1.commands := by
      have := commands_get (E := E) (s := s) (n := name) (.inl hc)
      rw [ho] at this
      exact Map.mem_of_get this
    cases hx : (opcodes E (setup Dev.init s).1.commands).find? fun p => decide (p.2 = op) with
    | none =>
      rw [List.find?_eq_none] at hx
      exact absurd (by simp) (hx _ hm)
    | some p =>
      have h1 := List.find?_some hx
      simp only [decide_eq_true_eq] at h1
      have h2 := opcodes_mem (List.mem_of_find?_eq_some hx)
      have h3 := opcode_of_getD (h2.symm.trans h1) hop
      show perform d p.1 o = _
      rw [(hO _ _ _ h3 ho).1]
  · intro h
    injection h with h
    exact hn (hO _ _ _ ho (opcode_of_getD h hop)).1

theorem metas_get {E : Env} {s : Setup} {d : Dev} (H : Knows E s d) {name : String} {x : Meta}
    (hc : ∃ i, (name, i) ∈ s.commands) (hx : (name, x) ∈ s.descriptions)
    (hu : ∀ x', (name, x') ∈ s.descriptions → x' = x) : d.metas.get name = some x := by
  rw [H.metas]
  show (putMetas _ _ s.descriptions).get name = some x
  rw [putMetas_get]
  · show Map.get s.descriptions name = some x
    obtain ⟨y, hy⟩ := Option.isSome_iff_exists.1 (Map.get_isSome_of_mem (m := s.descriptions) hx)
    rw [hu y (Map.mem_of_get hy)] at hy
    exact hy
  · rw [Map.get_insert]
    by_cases hn : name = "ready"
    · rw [if_pos hn]; rfl
    · rw [if_neg hn]
      exact (putCommands_table s.commands _ _ name).2 (.inl hc)

theorem command_at {o : Obj} {op : BitVec 16} {a n e : Nat} (h : Command o op a n e) :
    (asIndex (at_ o 2)).toNat = a ∧ (getAtomCount (at_ o a)).toNat = n + 1 ∧
    o.refs[(asIndex (at_ o (a + 1))).toNat]? = some (some e) := by
  obtain ⟨_, w, h1, hw, _, ha, hh, _, hn, w', hw', _, hr⟩ := h
  rw [at_of hw, ha, at_of hh, at_of hw']
  exact ⟨rfl, hn, hr⟩

theorem known_any {E : Env} {s : Setup} {d : Dev} (hc : Clear [s]) (H : Knows E s d) {i : Int} {e : Nat}
    (h : entityOf E [s] i = some e) : (d.entities.any fun p => decide (p.2 = some e)) = true := by
  rw [entityOf_one] at h
  cases hn : named s.entities i with
  | none => rw [hn] at h; cases h
  | some n =>
    obtain ⟨e', h1, _, h3⟩ := entityOf_known hc H (named_mem hn)
    rw [entityOf_one, h] at h1
    cases h1
    rw [List.any_eq_true]
    exact ⟨_, Map.mem_of_get h3, by simp⟩

theorem toInt_num {w : Word} {k : Int} (h : Num w (k * unit)) (h1 : -2147483648 ≤ k ∧ k < 2147483648) :
    toInt (asFloat w) = some k := by
  obtain ⟨_, hn, hi, hv⟩ := h
  unfold toInt
  rw [hn, hi, hv, show k * unit = k * 2 ^ 149 from rfl, Int.mul_tdiv_cancel k (by decide)]
  simp
  omega

theorem asBoolean_boolean (b : Bool) : asBoolean (Atom.boolean b) = b := by cases b <;> decide

/-- Values are sent as they are. -/
theorem values_carry {E : Env} {ss : List Setup} {o : Obj} {t : Ty} {ws : List Word} {v : Out} (ht : t ≠ .commId)
    (h : Carries E ss o t ws v) : values o t ws = some (some v) := by
  cases t with
  | commId => exact absurd rfl ht
  | string => cases v <;> exact h.elim
  | double =>
    cases v with
    | doubles xs =>
      unfold values
      have : ws.map asFloat = xs := by
        induction h with
        | nil => rfl
        | cons hx _ ih => rw [List.map_cons, hx.2, ih]
      rw [this]
    | none => exact h.elim
    | ints _ => exact h.elim
    | bools _ => exact h.elim
    | ids _ => exact h.elim
  | bool =>
    cases v with
    | bools xs =>
      unfold values
      have : ws.map asBoolean = xs := by
        induction h with
        | nil => rfl
        | cons hx _ ih => rw [List.map_cons, hx, asBoolean_boolean, ih]
      rw [this]
    | none => exact h.elim
    | ints _ => exact h.elim
    | doubles _ => exact h.elim
    | ids _ => exact h.elim
  | int64 =>
    cases v with
    | ints xs =>
      unfold values
      have : (ws.mapM fun w => toInt (asFloat w)) = some xs := by
        induction h with
        | nil => rfl
        | cons hx _ ih => rw [List.mapM_cons, toInt_num hx.1 hx.2, ih]; rfl
      simp only [this, Option.map_some]
    | none => exact h.elim
    | bools _ => exact h.elim
    | doubles _ => exact h.elim
    | ids _ => exact h.elim

theorem words_of {o : Obj} {s : Nat} {ws : List Word} (h : ∀ k, k < ws.length → o.code[s + k]? = ws[k]?) :
    words o s ws.length = ws := by
  unfold words
  apply List.ext_getElem?
  intro k
  rw [List.getElem?_map]
  by_cases hk : k < ws.length
  · rw [List.getElem?_range hk, Option.map_some, List.getElem?_eq_getElem hk]
    rw [at_of ((h k hk).trans (List.getElem?_eq_getElem hk))]
  · rw [List.getElem?_eq_none (by simpa using hk), List.getElem?_eq_none (by omega)]; rfl

/-- **C150**, in part. Missing: commands for objects the device does not know (answered as executed), commands with
opcodes from 256 on, with identifiers of entities, described for several entities, or after a second setup. -/
theorem C150_commands_sent_partial : C150_weak := by
  intro E s0 w0 w es hO h0 h hc
  refine ⟨fun o a d ms hr he => eject_truth hr he, ?_⟩
  intro hn name op x o a e hname hop h256 hcmd hx hu htype hent
  obtain ⟨hc', H⟩ := reached_known h0 h hn hc
  have hmeta := metas_get H hcmd hx hu
  have hany := known_any hc' H hent
  have key : ∀ n, Command o op a n e → ∀ m, message w.dev name o = some (some m) →
      eject w.dev o = some (.same, w.dev, [m]) := by
    intro n hC m hm
    obtain ⟨h1, _, h3⟩ := command_at hC
    rw [eject_perform hO H hname hop h256 hcmd (function_of hC.1 h256)]
    unfold perform
    rw [h1, h3, Option.bind_some, if_pos hany, hm]
    rfl
  constructor
  · intro hC
    apply key 0 hC
    obtain ⟨h1, h2, _⟩ := command_at hC
    unfold message
    simp only [hmeta, h1]
    rw [if_pos]
    apply BitVec.eq_of_toNat_eq
    rw [h2]; rfl
  · intro ws v hC hA hV
    apply key 1 hC
    obtain ⟨h1, h2, _⟩ := command_at hC
    have hne : ¬ getAtomCount (at_ o a) = 1 := by
      intro hh; rw [hh] at h2; exact absurd h2 (by decide)
    unfold message
    simp only [hmeta, h1]
    rw [if_neg hne]
    rcases hA with ⟨⟨hs1, hs2⟩, y, rfl, hy⟩ | ⟨hns, hd, y, hy, hy1, hy2, hy3, hy4⟩
    · rw [if_neg]
      · have : words o (a + 2) 1 = [y] := by
          show [at_ o (a + 2 + 0)] = [y]
          rw [Nat.add_zero, at_of hy]
        rw [this, values_carry htype hV]; rfl
      · rcases hs2 with hs2 | hs2 <;> simp [hs1, hs2]
    · rw [if_pos]
      · rw [at_of hy, if_neg (fun hh => hh hy1), at_of hy2, hy3]
        rw [words_of hy4, values_carry htype hV]; rfl
      · simp only [Bool.or_eq_true, Bool.and_eq_true, decide_eq_true_eq, ne_eq]
        unfold Scalar at hns
        by_cases hh : x.handle = ""
        · right
          exact ⟨fun h => hns ⟨hh, .inl h⟩, fun h => hns ⟨hh, .inr h⟩⟩
        · exact .inl hh

/-! ## Examples -/

/-- The command `go` for object `r`, with the number 1. -/
def go (r : Nat) (op : BitVec 16) : Obj :=
  ⟨[Atom.object 42 3, deviceFunction op, iPointer 4, one, Atom.set 2, rPointer 0, one], [some r]⟩

/-- A command as the partial theorem wants it: the environment gets it. -/
theorem C150_nonvacuous :
    Opcodes E0 ∧ NoSetup ⟨d0, [], [], [], []⟩ ∧ Clear (setups s0 ⟨d0, [], [], [], []⟩) ∧
    entityOf E0 [s0] 0 = some 1 ∧ Command (go 1 41) 41 4 1 1 ∧
    Argument (go 1 41) ⟨0, 2, .double, "", [1]⟩ 4 [one] ∧
    Carries E0 [s0] (go 1 41) .double [one] (.doubles [0x3F800000]) ∧
    eject d0 (go 1 41) = some (.same, d0, [.command 0 2 (.doubles [0x3F800000])]) := by
  refine ⟨?_, fun s t h => absurd h List.not_mem_nil, clear_s0, by decide +kernel, ?_, ?_, ?_, by decide +kernel⟩
  · intro n m op h1 h2
    simp only [E0] at h1 h2
    split at h1
    · cases h1; split at h2
      · exact ⟨by simp_all, by decide⟩
      · split at h2
        · cases h2
        · split at h2 <;> cases h2
    · split at h1
      · cases h1; split at h2
        · cases h2
        · split at h2
          · exact ⟨by simp_all, by decide⟩
          · split at h2 <;> cases h2
      · split at h1
        · cases h1; split at h2
          · cases h2
          · split at h2
            · cases h2
            · split at h2
              · exact ⟨by simp_all, by decide⟩
              · cases h2
        · cases h1
  · refine ⟨by decide +kernel, iPointer 4, Atom.set 2, by decide +kernel, by decide +kernel, by decide +kernel,
      by decide +kernel, by decide +kernel, by decide +kernel, rPointer 0, by decide +kernel, by decide +kernel,
      by decide +kernel⟩
  · exact .inl ⟨⟨rfl, .inl rfl⟩, one, rfl, by decide +kernel⟩
  · exact .cons ⟨by decide +kernel, by decide +kernel⟩ .nil

/-- **C150** does not hold in full: a command for an object that is not an entity is answered as executed, and nothing
is sent. -/
theorem C150_commands_sent_violated : ¬ C150_full ∧ eject d0 (go 7 41) = some (.same, d0, []) := by
  have hw : eject d0 (go 7 41) = some (.same, d0, []) := by decide +kernel
  refine ⟨fun h => ?_, hw⟩
  have := (h E0 s0 _ ⟨d0, [], [], [], []⟩ [] C150_nonvacuous.1 start_s0 rfl clear_s0).1 (go 7 41) .same d0 []
    (by decide +kernel) hw
  exact absurd (this.2 rfl) (by decide)

/-- A reference read as a number is less than one. -/
theorem refZero {w : Word} {y : Int} (hd : getDescriptor w = 0x85) (h : toInt64 (asFloat w) = some y) : y = 0 := by
  have h1 := congrArg BitVec.toNat hd
  rw [getDescriptor_toNat] at h1
  have h2 : (asFloat w).toNat = w.toNat * 2 % 4294967296 := by
    unfold asFloat
    rw [BitVec.toNat_shiftLeft, Nat.shiftLeft_eq]
  have hw := w.isLt
  have h1' : w.toNat / 16777216 = 133 := h1
  have h3 : 167772160 ≤ (asFloat w).toNat ∧ (asFloat w).toNat < 201326592 := by omega
  generalize asFloat w = f at h h3
  have hm : mag f < 2 ^ 149 := by
    have he : expo f ≤ 23 := by unfold expo; omega
    have hn : mant f < 8388608 := by unfold mant; omega
    unfold mag
    split
    · exact Nat.lt_of_lt_of_le hn (by decide)
    · have hu : ulp f ≤ 2 ^ 22 := Nat.pow_le_pow_right (by decide) (by omega)
      calc (8388608 + mant f) * ulp f ≤ 16777216 * 2 ^ 22 := Nat.mul_le_mul (by omega) hu
        _ < 2 ^ 149 := by decide
  unfold toInt64 at h
  split at h
  · cases h
  · simp only at h
    split at h
    · cases h
      unfold Match.value
      split
      · rw [Int.tdiv_eq_ediv_of_nonneg (by omega)]; omega
      · rw [Int.neg_tdiv, Int.tdiv_eq_ediv_of_nonneg (by omega)]; omega
    · cases h

/-- The same with other opcodes. -/
def E1 : Env := { E0 with opcode := fun n => if n = "go" then some 297 else if n = "stop" then some 41 else none }

/-- A setup with two commands. -/
def s1 : Setup :=
  ⟨[("a", 0)], [("go", 2), ("stop", 4)], [], [("go", ⟨0, 2, .double, "", [1]⟩), ("stop", ⟨0, 4, .double, "", [1]⟩)]⟩

/-- Nor for a command whose opcode is 256 or more: another one is sent, of which the opcode has the same last eight
bits. -/
theorem C150_opcode_violated :
    ∃ w, start E1 s1 = some w ∧ E1.opcode "go" = some 297 ∧ Command (go 1 297) 297 4 1 1 ∧
      eject w.dev (go 1 297) = some (.same, w.dev, [.command 0 4 (.doubles [0x3F800000])]) := by
  refine ⟨_, rfl, rfl, ?_, by decide +kernel⟩
  refine ⟨by decide +kernel, iPointer 4, Atom.set 2, by decide +kernel, by decide +kernel, by decide +kernel,
      by decide +kernel, by decide +kernel, by decide +kernel, rPointer 0, by decide +kernel, by decide +kernel,
      by decide +kernel⟩

/-- The command `go` for the entity `a`, with a reference to object 2. -/
def goTo : Obj :=
  ⟨[Atom.object 42 3, deviceFunction 41, iPointer 4, one, Atom.set 2, rPointer 0, rPointer 1], [some 1, some 2]⟩

/-- A setup in which the value of the command is an entity. -/
def s2 : Setup := ⟨[("a", 5), ("b", 1)], [("go", 2)], [], [("go", ⟨5, 2, .commId, "", [1]⟩)]⟩

/-- Nor for a command with the identifier of an entity: whatever the entity, 0 is sent. -/
theorem C150_id_violated :
    (∀ (o : Obj) (ws : List Word) (xs : List Int), refData o ws = some xs → ∀ x ∈ xs, x = 0) ∧
    ∃ w, start E0 s2 = some w ∧ Carries E0 [s2] goTo .commId [rPointer 1] (.ids [1]) ∧
      eject w.dev goTo = some (.same, w.dev, [.command 5 2 (.ids [0])]) := by
  constructor
  · intro o ws
    induction ws with
    | nil => intro xs h; cases h; intro x hx; cases hx
    | cons w ws ih =>
      intro xs h
      unfold refData at h
      split at h
      · exact ih xs h
      · rename_i hd
        simp only [Option.bind_eq_some_iff, Option.map_eq_some_iff] at h
        obtain ⟨_, _, y, hy, ys, hys, rfl⟩ := h
        intro x hx
        rcases List.mem_cons.1 hx with rfl | hx
        · have hd' : getDescriptor w = 0x85 := by
            by_cases hh : getDescriptor w = 0x85
            · exact hh
            · exact absurd hh hd
          exact refZero hd' hy
        · exact ih ys hys x hx
  · refine ⟨_, rfl, ?_, by decide +kernel⟩
    exact .cons ⟨by decide +kernel, 2, by decide +kernel, by decide +kernel⟩ .nil

/-- A setup in which a command is described for two entities. -/
def s3 : Setup :=
  ⟨[("a", 0), ("b", 1)], [("go", 2)], [], [("go", ⟨0, 2, .double, "", [1]⟩), ("go", ⟨1, 2, .double, "", [1]⟩)]⟩

/-- Nor for a command described for two entities: sent to the second, it goes to the first. -/
theorem C150_entity_violated :
    ∃ w, start E0 s3 = some w ∧ entityOf E0 [s3] 1 = some 2 ∧ Command (go 2 41) 41 4 1 2 ∧
      eject w.dev (go 2 41) = some (.same, w.dev, [.command 0 2 (.doubles [0x3F800000])]) := by
  refine ⟨_, rfl, by decide +kernel, ?_, by decide +kernel⟩
  refine ⟨by decide +kernel, iPointer 4, Atom.set 2, by decide +kernel, by decide +kernel, by decide +kernel,
      by decide +kernel, by decide +kernel, by decide +kernel, rPointer 0, by decide +kernel, by decide +kernel,
      by decide +kernel⟩

/-- Nor after a second message of setup: the command is refused. -/
theorem C150_setup_violated :
    ∃ w, run E0 ⟨d0, [], [], [], []⟩ [.receive (.setup s0), .tick 100] = some w ∧
      eject w.dev (go 1 41) = some (.null, w.dev, []) := by
  refine ⟨_, rfl, by decide +kernel⟩

end Verif.Tcp
