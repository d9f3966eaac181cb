import Verif.Tcp.Order
/-!
# Lemmas about the network device: tables, and what the device knows
-/
namespace Verif.Tcp
open Verif.Atom Verif.Observe Verif.Screen

/-! ## Tables -/

section
variable {κ α : Type} [DecidableEq κ]

theorem Map.get_nil (k : κ) : Map.get ([] : Map κ α) k = none := rfl

theorem Map.get_cons (p : κ × α) (m : Map κ α) (k : κ) :
    Map.get (p :: m) k = if p.1 = k then some p.2 else Map.get m k := by
  unfold Map.get
  by_cases h : p.1 = k
  · rw [if_pos h, List.find?_cons_of_pos (by simpa using h)]; rfl
  · rw [if_neg h, List.find?_cons_of_neg (by simpa using h)]

theorem Map.get_append_single (m : Map κ α) (k : κ) (v : α) (j : κ) :
    Map.get (m ++ [(k, v)]) j = match Map.get m j with
      | some x => some x
      | none => if k = j then some v else none := by
  induction m with
  | nil => rw [List.nil_append, Map.get_cons]; rfl
  | cons p m ih =>
    rw [List.cons_append, Map.get_cons, Map.get_cons, ih]
    by_cases h : p.1 = j
    · rw [if_pos h, if_pos h]
    · rw [if_neg h, if_neg h]

theorem Map.get_map (m : Map κ α) (k : κ) (v : α) (j : κ) :
    Map.get (m.map fun p => if p.1 = k then (k, v) else p) j =
      if j = k then (Map.get m k).map fun _ => v else Map.get m j := by
  induction m with
  | nil => simp only [List.map_nil, Map.get_nil, Option.map_none, ite_self]
  | cons p m ih =>
    rw [List.map_cons, Map.get_cons, Map.get_cons, Map.get_cons, ih]
    by_cases hp : p.1 = k
    · simp only [if_pos hp]
      by_cases hj : j = k
      · subst hj; simp
      · rw [if_neg (fun h => hj h.symm), if_neg hj, if_neg hj, if_neg (fun h => hj (h.symm.trans hp))]
    · simp only [if_neg hp]
      by_cases hj : j = k
      · subst hj; simp [hp]
      · simp [hj]

theorem Map.get_put (m : Map κ α) (k : κ) (v : α) (j : κ) :
    (m.put k v).get j = if j = k then some v else m.get j := by
  unfold Map.put
  cases hk : Map.get m k with
  | some x =>
    rw [Option.isSome_some, if_pos rfl, Map.get_map, hk]; rfl
  | none =>
    rw [Option.isSome_none, if_neg (by simp), Map.get_append_single]
    by_cases hj : j = k
    · subst hj; simp [hk]
    · rw [if_neg hj, if_neg (fun h => hj h.symm)]; cases Map.get m j <;> rfl

theorem Map.get_insert (m : Map κ α) (k : κ) (v : α) (j : κ) :
    (m.insert k v).get j = if j = k then some ((m.get k).getD v) else m.get j := by
  unfold Map.insert
  cases hk : Map.get m k with
  | some x =>
    rw [Option.isSome_some, if_pos rfl]
    by_cases hj : j = k
    · subst hj; rw [if_pos rfl, hk]; rfl
    · rw [if_neg hj]
  | none =>
    rw [Option.isSome_none, if_neg (by simp), Map.get_append_single]
    by_cases hj : j = k
    · subst hj; simp [hk]
    · rw [if_neg hj, if_neg (fun h => hj h.symm)]; cases Map.get m j <;> rfl

theorem Map.mem_of_get {m : Map κ α} {k : κ} {v : α} (h : m.get k = some v) : (k, v) ∈ m := by
  unfold Map.get at h
  simp only [Option.map_eq_some_iff] at h
  obtain ⟨p, hp, rfl⟩ := h
  have := List.find?_some hp
  simp only [decide_eq_true_eq] at this
  subst this
  exact List.mem_of_find?_eq_some hp

theorem Map.get_isSome_of_mem {m : Map κ α} {p : κ × α} (h : p ∈ m) : (m.get p.1).isSome = true := by
  unfold Map.get
  rw [Option.isSome_map, List.find?_isSome]
  exact ⟨p, h, by simp⟩

end

/-! ## Names -/

theorem named_mem {l : List (String × Int)} {i : Int} {n : String} (h : named l i = some n) : (n, i) ∈ l := by
  simp only [named, Option.map_eq_some_iff] at h
  obtain ⟨p, hp, rfl⟩ := h
  have := List.find?_some hp
  simp only [decide_eq_true_eq] at this
  subst this
  exact List.mem_of_find?_eq_some hp

theorem named_none {l : List (String × Int)} {i : Int} (h : named l i = none) (n : String) : (n, i) ∉ l := by
  simp only [named, Option.map_eq_none_iff, List.find?_eq_none] at h
  intro hm
  exact h _ hm (by simp)

/-- Putting names: an identifier of the list has a name of the list, others keep theirs; names of the list are in the
table, with nothing found for them. -/
theorem putNames_ids (l : List (String × Int)) : ∀ (ids : Map Int String) (m : Map String (Option Nat)) (i : Int)
    (n : String), (putNames ids m l).1.get i = some n → (n, i) ∈ l ∨ ids.get i = some n := by
  induction l with
  | nil => intro ids m i n h; exact .inr h
  | cons p l ih =>
    intro ids m i n h
    obtain ⟨pn, pi⟩ := p
    rcases ih _ _ i n h with h | h
    · exact .inl (List.mem_cons_of_mem _ h)
    · rw [Map.get_put] at h
      by_cases hi : i = pi
      · subst hi; rw [if_pos rfl] at h; cases h; exact .inl (List.mem_cons_self ..)
      · rw [if_neg hi] at h; exact .inr h

theorem putNames_isSome (l : List (String × Int)) : ∀ (ids : Map Int String) (m : Map String (Option Nat)) (i : Int),
    ((∃ n, (n, i) ∈ l) ∨ (ids.get i).isSome = true) → ((putNames ids m l).1.get i).isSome = true := by
  induction l with
  | nil => intro ids m i h; rcases h with ⟨n, h⟩ | h; · cases h
           · exact h
  | cons p l ih =>
    intro ids m i h
    obtain ⟨pn, pi⟩ := p
    apply ih
    rw [Map.get_put]
    by_cases hi : i = pi
    · right; rw [if_pos hi]; rfl
    · rw [if_neg hi]
      rcases h with ⟨n, h⟩ | h
      · rcases List.mem_cons.1 h with h | h
        · cases h; exact absurd rfl hi
        · exact .inl ⟨n, h⟩
      · exact .inr h

theorem putNames_table (l : List (String × Int)) : ∀ (ids : Map Int String) (m : Map String (Option Nat)) (n : String),
    ((putNames ids m l).2.get n).isSome = true ↔ ((∃ i, (n, i) ∈ l) ∨ (m.get n).isSome = true) := by
  induction l with
  | nil =>
    intro ids m n
    exact ⟨.inr, fun h => by rcases h with ⟨i, h⟩ | h; · cases h
                             · exact h⟩
  | cons p l ih =>
    intro ids m n
    obtain ⟨pn, pi⟩ := p
    rw [putNames, ih, Map.get_put]
    by_cases hn : n = pn
    · subst hn
      rw [if_pos rfl]
      exact ⟨fun _ => .inl ⟨pi, List.mem_cons_self ..⟩, fun _ => .inr rfl⟩
    · rw [if_neg hn]
      constructor
      · rintro (⟨i, h⟩ | h)
        · exact .inl ⟨i, List.mem_cons_of_mem _ h⟩
        · exact .inr h
      · rintro (⟨i, h⟩ | h)
        · rcases List.mem_cons.1 h with h | h
          · cases h; exact absurd rfl hn
          · exact .inl ⟨i, h⟩
        · exact .inr h

theorem putCommands_ids (l : List (String × Int)) : ∀ (ids : Map Int String) (m : Map String (BitVec 16)) (i : Int)
    (n : String), (putCommands ids m l).1.get i = some n → (n, i) ∈ l ∨ ids.get i = some n := by
  induction l with
  | nil => intro ids m i n h; exact .inr h
  | cons p l ih =>
    intro ids m i n h
    obtain ⟨pn, pi⟩ := p
    rcases ih _ _ i n h with h | h
    · exact .inl (List.mem_cons_of_mem _ h)
    · rw [Map.get_put] at h
      by_cases hi : i = pi
      · subst hi; rw [if_pos rfl] at h; cases h; exact .inl (List.mem_cons_self ..)
      · rw [if_neg hi] at h; exact .inr h

theorem putCommands_isSome (l : List (String × Int)) : ∀ (ids : Map Int String) (m : Map String (BitVec 16)) (i : Int),
    ((∃ n, (n, i) ∈ l) ∨ (ids.get i).isSome = true) → ((putCommands ids m l).1.get i).isSome = true := by
  induction l with
  | nil => intro ids m i h; rcases h with ⟨n, h⟩ | h; · cases h
           · exact h
  | cons p l ih =>
    intro ids m i h
    obtain ⟨pn, pi⟩ := p
    apply ih
    rw [Map.get_put]
    by_cases hi : i = pi
    · right; rw [if_pos hi]; rfl
    · rw [if_neg hi]
      rcases h with ⟨n, h⟩ | h
      · rcases List.mem_cons.1 h with h | h
        · cases h; exact absurd rfl hi
        · exact .inl ⟨n, h⟩
      · exact .inr h

theorem putCommands_table (l : List (String × Int)) : ∀ (ids : Map Int String) (m : Map String (BitVec 16)) (n : String),
    ((putCommands ids m l).2.get n).isSome = true ↔ ((∃ i, (n, i) ∈ l) ∨ (m.get n).isSome = true) := by
  induction l with
  | nil =>
    intro ids m n
    exact ⟨.inr, fun h => by rcases h with ⟨i, h⟩ | h; · cases h
                             · exact h⟩
  | cons p l ih =>
    intro ids m n
    obtain ⟨pn, pi⟩ := p
    rw [putCommands, ih, Map.get_put]
    by_cases hn : n = pn
    · subst hn
      rw [if_pos rfl]
      exact ⟨fun _ => .inl ⟨pi, List.mem_cons_self ..⟩, fun _ => .inr rfl⟩
    · rw [if_neg hn]
      constructor
      · rintro (⟨i, h⟩ | h)
        · exact .inl ⟨i, List.mem_cons_of_mem _ h⟩
        · exact .inr h
      · rintro (⟨i, h⟩ | h)
        · rcases List.mem_cons.1 h with h | h
          · cases h; exact absurd rfl hn
          · exact .inl ⟨i, h⟩
        · exact .inr h

theorem findAll_get {E : Env} : ∀ {m r : Map String (Option Nat)}, findAll E m = some r → ∀ n,
    r.get n = (m.get n).map fun _ => E.find n := by
  intro m
  induction m with
  | nil => intro r h n; cases h; rfl
  | cons p m ih =>
    intro r h n
    obtain ⟨pn, pv⟩ := p
    simp only [findAll, Option.bind_eq_some_iff, Option.map_eq_some_iff] at h
    obtain ⟨o, ho, r', hr, rfl⟩ := h
    rw [Map.get_cons, Map.get_cons, ih hr n]
    by_cases hn : pn = n
    · subst hn; rw [if_pos rfl, if_pos rfl, Option.map_some, ho]
    · rw [if_neg hn, if_neg hn]

theorem findAll_found {E : Env} : ∀ {m r : Map String (Option Nat)}, findAll E m = some r → ∀ n,
    (m.get n).isSome = true → (E.find n).isSome = true := by
  intro m
  induction m with
  | nil => intro r h n hn; simp [Map.get_nil] at hn
  | cons p m ih =>
    intro r h n hn
    obtain ⟨pn, pv⟩ := p
    simp only [findAll, Option.bind_eq_some_iff, Option.map_eq_some_iff] at h
    obtain ⟨o, ho, r', hr, rfl⟩ := h
    rw [Map.get_cons] at hn
    by_cases hp : pn = n
    · subst hp; rw [ho]; rfl
    · rw [if_neg hp] at hn; exact ih hr n hn

theorem opcodes_get (E : Env) (m : Map String (BitVec 16)) (n : String) :
    (opcodes E m).get n = (m.get n).map fun _ => (E.opcode n).getD 0xFFFF := by
  induction m with
  | nil => rfl
  | cons p m ih =>
    unfold opcodes at ih ⊢
    rw [List.map_cons, Map.get_cons, Map.get_cons, ih]
    by_cases hp : p.1 = n
    · subst hp; rw [if_pos rfl, if_pos rfl]; rfl
    · rw [if_neg hp, if_neg hp]

theorem putMetas_get (cs : Map String (BitVec 16)) (l : List (String × Meta)) : ∀ (m : Map String Meta) (n : String),
    (cs.get n).isSome = true → (putMetas cs m l).get n = match m.get n with
      | some x => some x
      | none => Map.get l n := by
  induction l with
  | nil => intro m n _; rw [putMetas, Map.get_nil]; cases m.get n <;> rfl
  | cons p l ih =>
    intro m n hn
    obtain ⟨pn, px⟩ := p
    rw [putMetas, ih _ n hn, Map.get_cons]
    by_cases hp : pn = n
    · subst hp
      rw [if_pos hn, Map.get_insert, if_pos rfl, if_pos rfl]
      cases m.get pn <;> rfl
    · rw [if_neg hp]
      have : (if (cs.get pn).isSome = true then m.insert pn px else m).get n = m.get n := by
        by_cases hc : (cs.get pn).isSome = true
        · rw [if_pos hc, Map.get_insert, if_neg (fun h => hp h.symm)]
        · rw [if_neg hc]
      rw [this]

/-! ## What the device knows -/

/-- A table of names `l`, all of them found. -/
structure Table (E : Env) (l : List (String × Int)) (m : Map String (Option Nat)) : Prop where
  known : ∀ n i, (n, i) ∈ l → m.get n = some (E.find n) ∧ (E.find n).isSome = true
  only : ∀ n x, m.get n = some (some x) → ∃ i, (n, i) ∈ l

/-- The device knows what was said in the message of setup `s`. -/
structure Knows (E : Env) (s : Setup) (d : Dev) : Prop where
  said : ∀ n i, (n, i) ∈ s.all → d.ids.get i = some n
  heard : ∀ n i, d.ids.get i = some n → n = "" ∨ (n, i) ∈ s.all
  entities : Table E s.entities d.entities
  objects : Table E s.objects d.objects
  commands : d.commands = opcodes E (setup Dev.init s).1.commands
  metas : d.metas = (setup Dev.init s).1.metas

theorem Table.of_load {E : Env} {l : List (String × Int)} {m r : Map String (Option Nat)}
    (hm : ∀ n, (m.get n).isSome = true ↔ ∃ i, (n, i) ∈ l) (h : findAll E m = some r) : Table E l r := by
  refine ⟨fun n i hi => ?_, fun n x hx => ?_⟩
  · have hs := (hm n).2 ⟨i, hi⟩
    refine ⟨?_, findAll_found h n hs⟩
    rw [findAll_get h n]
    obtain ⟨y, hy⟩ := Option.isSome_iff_exists.1 hs
    rw [hy]; rfl
  · rw [findAll_get h n] at hx
    apply (hm n).1
    cases hc : m.get n with
    | none => rw [hc] at hx; cases hx
    | some y => rfl

theorem mem_all {s : Setup} {p : String × Int} :
    p ∈ s.all ↔ (p ∈ s.entities ∨ p ∈ s.commands) ∨ p ∈ s.objects := by
  unfold Setup.all; rw [List.mem_append, List.mem_append]

theorem Knows.start {E : Env} {s : Setup} {d : Dev} (hc : Clear [s]) (h : load E (setup Dev.init s).1 = some d) :
    Knows E s d := by
  obtain ⟨_, h1, h2, h3, h4, h5⟩ := load_last h
  have hids : ∀ i n, (setup Dev.init s).1.ids.get i = some n → (n, i) ∈ s.all := by
    intro i n hi
    rw [mem_all]
    rcases putNames_ids s.objects _ _ i n hi with hi | hi
    · exact .inr hi
    · rcases putCommands_ids s.commands _ _ i n hi with hi | hi
      · exact .inl (.inr hi)
      · rcases putNames_ids s.entities _ _ i n hi with hi | hi
        · exact .inl (.inl hi)
        · simp [Dev.init, Map.get_nil] at hi
  have hsome : ∀ n i, (n, i) ∈ s.all → ((setup Dev.init s).1.ids.get i).isSome = true := by
    intro n i hi
    apply putNames_isSome
    rcases mem_all.1 hi with (hi | hi) | hi
    · right; apply putCommands_isSome; right; apply putNames_isSome; exact .inl ⟨n, hi⟩
    · right; apply putCommands_isSome; exact .inl ⟨n, hi⟩
    · exact .inl ⟨n, hi⟩
  refine ⟨?_, ?_, ?_, ?_, h3, h2⟩
  · intro n i hi
    rw [h1]
    obtain ⟨n', hn'⟩ := Option.isSome_iff_exists.1 (hsome n i hi)
    have := (hc.1 s (List.mem_singleton.2 rfl) s (List.mem_singleton.2 rfl) _ hi _ (hids i n' hn')).2 rfl
    rw [hn']; exact congrArg some this.symm
  · intro n i hi; rw [h1] at hi; exact .inr (hids i n hi)
  · refine Table.of_load (fun n => ?_) h4
    exact (putNames_table s.entities _ _ n).trans (by simp [Dev.init, Map.get_nil])
  · refine Table.of_load (fun n => ?_) h5
    exact (putNames_table s.objects _ _ n).trans (by simp [Dev.init, Map.get_nil])

theorem Table.insert {E : Env} {l : List (String × Int)} {m : Map String (Option Nat)} (H : Table E l m) (n : String) :
    Table E l (m.insert n none) := by
  refine ⟨fun k i hk => ?_, fun k x hx => ?_⟩
  · obtain ⟨h1, h2⟩ := H.known k i hk
    refine ⟨?_, h2⟩
    rw [Map.get_insert]
    by_cases hkn : k = n
    · subst hkn; rw [if_pos rfl, h1]; rfl
    · rw [if_neg hkn, h1]
  · rw [Map.get_insert] at hx
    by_cases hkn : k = n
    · subst hkn
      rw [if_pos rfl] at hx
      cases hc : m.get k with
      | none => rw [hc] at hx; cases hx
      | some y => rw [hc] at hx; exact H.only k x (by rw [hc]; exact hx)
    · rw [if_neg hkn] at hx; exact H.only k x hx

/-- What is known of identifiers stays known when an unknown one gets the empty name. -/
def IdsOk (s : Setup) (ids : Map Int String) : Prop :=
  (∀ n i, (n, i) ∈ s.all → ids.get i = some n) ∧ ∀ n i, ids.get i = some n → n = "" ∨ (n, i) ∈ s.all

theorem IdsOk.insert {s : Setup} {ids : Map Int String} (H : IdsOk s ids) (i : Int) : IdsOk s (ids.insert i "") := by
  refine ⟨fun n j hj => ?_, fun n j hj => ?_⟩
  · rw [Map.get_insert]
    by_cases hji : j = i
    · subst hji; rw [if_pos rfl, H.1 n j hj]; rfl
    · rw [if_neg hji]; exact H.1 n j hj
  · rw [Map.get_insert] at hj
    by_cases hji : j = i
    · subst hji
      rw [if_pos rfl] at hj
      cases hc : ids.get j with
      | none => rw [hc] at hj; cases hj; exact .inl rfl
      | some y => rw [hc] at hj; cases hj; exact H.2 _ _ hc
    · rw [if_neg hji] at hj; exact H.2 n j hj

/-- Looking up an identifier gives the object of that name among those of the table. -/
theorem look_eq {E : Env} {s : Setup} {l : List (String × Int)} {ids : Map Int String} {m : Map String (Option Nat)}
    (hc : Clear [s]) (hl : ∀ p ∈ l, p ∈ s.all) (HI : IdsOk s ids) (HT : Table E l m) (i : Int) :
    (look ids m i).2.2 = (named l i).bind E.find := by
  show (m.get ((ids.get i).getD "")).getD none = _
  cases hn : named l i with
  | some n =>
    have hm := named_mem hn
    rw [HI.1 n i (hl _ hm), Option.getD_some, (HT.known n i hm).1]
    rfl
  | none =>
    show _ = none
    cases hg : m.get ((ids.get i).getD "") with
    | none => rfl
    | some o =>
      cases o with
      | none => rfl
      | some x =>
        exfalso
        obtain ⟨j, hj⟩ := HT.only _ x hg
        have hne := hc.2 s (List.mem_singleton.2 rfl) _ (hl _ hj)
        cases hi : ids.get i with
        | none => rw [hi] at hne; exact hne rfl
        | some k =>
          rw [hi] at hj hne
          rcases HI.2 k i hi with rfl | hk
          · exact hne rfl
          · have := (hc.1 s (List.mem_singleton.2 rfl) s (List.mem_singleton.2 rfl) _ (hl _ hj) _ hk).1 rfl
            simp only at this
            subst this
            exact named_none hn _ hj

/-- The device while a variable is looked up. -/
theorem receive_known {E : Env} {s : Setup} {d : Dev} (H : Knows E s d) (v : Var) :
    Knows E s { d with
      ids := (look (look d.ids d.entities v.entity).1 d.objects v.prop).1,
      entities := (look d.ids d.entities v.entity).2.1,
      objects := (look (look d.ids d.entities v.entity).1 d.objects v.prop).2.1 } := by
  have hI : IdsOk s ((d.ids.insert v.entity "").insert v.prop "") :=
    (IdsOk.insert ⟨H.said, H.heard⟩ v.entity).insert v.prop
  exact ⟨hI.1, hI.2, H.entities.insert _, H.objects.insert _, H.commands, H.metas⟩

theorem receive_dev {E : Env} {d d' : Dev} {v : Var} {t : Int} {r : List Seen} (h : receive E d v t = some (d', r)) :
    d' = { d with
      ids := (look (look d.ids d.entities v.entity).1 d.objects v.prop).1,
      entities := (look d.ids d.entities v.entity).2.1,
      objects := (look (look d.ids d.entities v.entity).1 d.objects v.prop).2.1 } := by
  unfold receive at h
  simp only at h
  split at h
  · cases h; rfl
  · cases h; rfl
  · simp only [Option.map_eq_some_iff] at h; obtain ⟨_, _, h⟩ := h; cases h; rfl
  · simp only [Option.map_eq_some_iff] at h; obtain ⟨_, _, h⟩ := h; cases h; rfl
  · cases h; rfl

theorem data_known {E : Env} {s : Setup} {t : Int} (vs : List Var) : ∀ {d d' : Dev} {r : List Seen},
    Knows E s d → data E d t vs = some (d', r) → Knows E s d' := by
  induction vs with
  | nil => intro d d' r H h; cases h; exact H
  | cons v vs ih =>
    intro d d' r H h
    simp only [data, Option.bind_eq_some_iff, Option.map_eq_some_iff] at h
    obtain ⟨⟨d1, r1⟩, h1, ⟨d2, r2⟩, h2, h3⟩ := h
    cases h3
    refine ih ?_ h2
    rw [receive_dev h1]
    exact receive_known H v

theorem Knows.frame {E : Env} {s : Setup} {d : Dev} (H : Knows E s d) (b : Bool) (t : Int) :
    Knows E s { d with started := b, last := t } := ⟨H.1, H.2, H.3, H.4, H.5, H.6⟩

/-- No message of setup was handled. -/
def NoSetup (w : World) : Prop := ∀ s t, (t, Msg.setup s) ∉ w.handled

theorem step_known {E : Env} {s : Setup} {w w' : World} {e : Event} (H : NoSetup w → Knows E s w.dev)
    (h : step E w e = some w') : NoSetup w' → Knows E s w'.dev := by
  cases e with
  | receive m => simp only [step, Option.some.injEq] at h; subst h; exact H
  | lose i => simp only [step, Option.some.injEq] at h; subst h; exact H
  | tick t =>
    rcases tick_cases h with ⟨rfl, _⟩ | ⟨m, q, w1, _, hq, h1, rfl⟩
    · exact H
    · intro hn
      obtain ⟨_, e2⟩ := handle_frame h1
      have hw : Knows E s w.dev := H fun s' t' hm => hn s' t' (by rw [e2]; exact List.mem_append_left _ hm)
      cases m with
      | setup s' => exact absurd (List.mem_append_right _ (List.mem_singleton.2 rfl)) (hn s' t)
      | other => cases h1; exact hw.frame _ t
      | data vs =>
        simp only [handle, Option.map_eq_some_iff] at h1
        obtain ⟨⟨d, r⟩, h1, rfl⟩ := h1
        exact (data_known vs hw h1).frame _ t
  | eject o =>
    simp only [step, Option.map_eq_some_iff] at h
    obtain ⟨⟨a, d', ms⟩, h1, rfl⟩ := h
    intro hn
    have hw : Knows E s w.dev := H hn
    rcases eject_frame h1 with h | h
    · show Knows E s d'; rw [h]; exact hw
    · show Knows E s d'; rw [h]; exact hw.frame _ _

theorem run_known {E : Env} {s : Setup} (es : List Event) : ∀ {w w' : World}, (NoSetup w → Knows E s w.dev) →
    run E w es = some w' → NoSetup w' → Knows E s w'.dev := by
  induction es with
  | nil => intro w w' H h; cases h; exact H
  | cons e es ih =>
    intro w w' H h
    simp only [run, Option.bind_eq_some_iff] at h
    obtain ⟨w1, h1, h2⟩ := h
    exact ih (step_known H h1) h2

theorem setups_noSetup {s0 : Setup} {w : World} (h : NoSetup w) : setups s0 w = [s0] := by
  unfold setups
  congr 1
  rw [List.filterMap_eq_nil_iff]
  rintro ⟨t, m⟩ hm
  cases m with
  | setup s => exact absurd hm (h s t)
  | data vs => rfl
  | other => rfl

/-- As long as no other message of setup was handled, the device knows what was said in the first. -/
theorem reached_known {E : Env} {s : Setup} {w0 w : World} {es : List Event} (h0 : start E s = some w0)
    (h : run E w0 es = some w) (hn : NoSetup w) (hc : Clear (setups s w)) : Clear [s] ∧ Knows E s w.dev := by
  rw [setups_noSetup hn] at hc
  obtain ⟨d, hl, rfl⟩ := start_world h0
  exact ⟨hc, run_known es (fun _ => Knows.start hc hl) h hn⟩

end Verif.Tcp
