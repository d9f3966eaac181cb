import Verif.Oper.Spec
/-!
# C173
-/
namespace Verif.Oper

theorem lookup_mem : ∀ {l : List (String × Ref)} {n r}, lookup l n = some r → (n, r) ∈ l
  | [], _, _, h => by cases h
  | (m, r') :: l, n, r, h => by
    simp only [lookup] at h
    cases hl : lookup l n with
    | some q =>
      rw [hl] at h
      cases h
      exact List.mem_cons_of_mem _ (lookup_mem hl)
    | none =>
      rw [hl] at h
      simp only at h
      split at h
      · rename_i e; cases h; subst e; exact List.mem_cons_self
      · cases h

theorem lookup_some : ∀ {l : List (String × Ref)} {n}, n ∈ l.map Prod.fst → ∃ r, lookup l n = some r
  | [], _, h => by cases h
  | (m, r') :: l, n, h => by
    simp only [lookup]
    cases hl : lookup l n with
    | some q => exact ⟨q, rfl⟩
    | none =>
      rcases List.mem_cons.1 h with h | h
      · exact ⟨r', by simp [h]⟩
      · obtain ⟨r, hr⟩ := lookup_some h
        rw [hl] at hr
        cases hr

theorem table_names : ∀ (ds : List Decl) (i j : Nat), (table i j ds).map Prod.fst = ds.map Decl.name
  | [], _, _ => rfl
  | .op n :: ds, i, j => by simp [table, Decl.name, table_names ds]
  | .fn n :: ds, i, j => by simp [table, Decl.name, table_names ds]
  | .cls n k s :: ds, i, j => by simp [table, Decl.name, table_names ds]

theorem table_op : ∀ {ds : List Decl} {i j n k}, (n, Ref.op k) ∈ table i j ds → i ≤ k ∧ (opNames ds)[k - i]? = some n
  | [], _, _, _, _, h => by cases h
  | .op m :: ds, i, j, n, k, h => by
    rcases List.mem_cons.1 h with h | h
    · cases h
      exact ⟨Nat.le_refl _, by simp [opNames]⟩
    · obtain ⟨h1, h2⟩ := table_op h
      refine ⟨by omega, ?_⟩
      obtain ⟨d, hd⟩ : ∃ d, k - i = d + 1 := ⟨k - i - 1, by omega⟩
      rw [hd]
      simp only [opNames, List.getElem?_cons_succ]
      rw [← h2]
      congr 1
      omega
  | .fn m :: ds, i, j, n, k, h => by
    rcases List.mem_cons.1 h with h | h
    · cases h
    · exact table_op (ds := ds) h
  | .cls m q s :: ds, i, j, n, k, h => by
    rcases List.mem_cons.1 h with h | h
    · cases h
    · exact table_op (ds := ds) h

theorem op_table : ∀ {ds : List Decl} {i j n}, n ∈ opNames ds → ∃ k, (n, Ref.op k) ∈ table i j ds
  | [], _, _, _, h => by cases h
  | .op m :: ds, i, j, n, h => by
    rcases List.mem_cons.1 h with rfl | h
    · exact ⟨i, List.mem_cons_self⟩
    · obtain ⟨k, hk⟩ := op_table (i := i + 1) (j := j) h
      exact ⟨k, List.mem_cons_of_mem _ hk⟩
  | .fn m :: ds, i, j, n, h => by
    obtain ⟨k, hk⟩ := op_table (ds := ds) (i := i) (j := j + 1) h
    exact ⟨k, List.mem_cons_of_mem _ hk⟩
  | .cls m q s :: ds, i, j, n, h => by
    obtain ⟨k, hk⟩ := op_table (ds := ds) (i := i) (j := j) h
    exact ⟨k, List.mem_cons_of_mem _ hk⟩

theorem nodup_fst : ∀ {l : List (String × Ref)} {n r r'}, (l.map Prod.fst).Nodup → (n, r) ∈ l → (n, r') ∈ l → r = r'
  | [], _, _, _, _, h, _ => by cases h
  | (m, q) :: l, n, r, r', hn, h, h' => by
    rw [List.map_cons, List.nodup_cons] at hn
    rcases List.mem_cons.1 h with h | h <;> rcases List.mem_cons.1 h' with h' | h'
    · cases h; cases h'; rfl
    · cases h; exact absurd (List.mem_map.2 ⟨_, h', rfl⟩) hn.1
    · cases h'; exact absurd (List.mem_map.2 ⟨_, h, rfl⟩) hn.1
    · exact nodup_fst hn.2 h h'

/-- The opcode of an operator is its place. -/
theorem opcode_op {ds : List Decl} (hn : (ds.map Decl.name).Nodup) {n} (h : n ∈ opNames ds) :
    ∃ k, opcode ds n = some k ∧ (opNames ds)[k]? = some n := by
  have hn' : ((table 0 0 ds).map Prod.fst).Nodup := by rw [table_names]; exact hn
  obtain ⟨k, hk⟩ := op_table (i := 0) (j := 0) h
  refine ⟨k, ?_, by simpa using (table_op hk).2⟩
  have h1 : lookup ((table 0 0 ds).filter fun e => isSys e.2) n = none := by
    cases hl : lookup ((table 0 0 ds).filter fun e => isSys e.2) n with
    | none => rfl
    | some r =>
      have hm := List.mem_filter.1 (lookup_mem hl)
      have := nodup_fst hn' hm.1 hk
      subst this
      simp [isSys] at hm
  have h2 : lookup (table 0 0 ds) n = some (.op k) := by
    obtain ⟨r, hr⟩ := lookup_some (List.mem_map.2 ⟨_, hk, rfl⟩)
    have := nodup_fst hn' (lookup_mem hr) hk
    subst this
    exact hr
  simp [opcode, h1, h2, Ref.opcode]

/-- The function at a place of a list, if there is one, is added. -/
def Entry.addAt (e : Entry) (f : String → Fn) (o : Option String) : Entry :=
  match o with
  | none => e
  | some n => e.add (f n)

theorem regStd_at : ∀ (ns : List String) (k : Nat) (t : Tab) (j : Nat),
    regStd k ns t j = (t j).addAt .std (if j < k then none else ns[j - k]?)
  | [], k, t, j => by simp [regStd, Entry.addAt]
  | n :: ns, k, t, j => by
    rw [regStd, regStd_at ns (k + 1)]
    simp only [register]
    by_cases h1 : j < k
    · rw [if_neg (by omega), if_pos (by omega), if_pos h1]
    · by_cases h2 : j = k
      · subst h2
        rw [if_pos rfl, if_pos (by omega), if_neg h1]
        simp [Entry.addAt]
      · rw [if_neg h2, if_neg (by omega), if_neg h1]
        obtain ⟨d, hd⟩ : ∃ d, j - k = d + 1 := ⟨j - k - 1, by omega⟩
        have hd' : j - (k + 1) = d := by omega
        rw [hd, hd', List.getElem?_cons_succ]

theorem opNames_nodup {ds : List Decl} (hn : (ds.map Decl.name).Nodup) : (opNames ds).Nodup := by
  have : (opNames ds).Sublist (ds.map Decl.name) := by
    clear hn
    induction ds with
    | nil => exact List.Sublist.refl _
    | cons d ds ih =>
      cases d with
      | op m => exact ih.cons_cons _
      | fn m => exact ih.cons _
      | cls m q s => exact ih.cons _
  exact this.nodup hn

theorem regUsr_at {ds : List Decl} {fns : List String} (hn : (ds.map Decl.name).Nodup) : ∀ (ns : List String) (t : Tab),
    (∀ n ∈ ns, n ∈ opNames ds) → (∀ n ∈ ns, n ∈ fns) → ns.Nodup →
    ∃ t', regUsr ds fns ns t = some t' ∧ ∀ j, t' j = (t j).addAt .usr ((opNames ds)[j]?.bind fun n => if n ∈ ns then some n else none)
  | [], t, _, _, _ => ⟨t, rfl, fun j => by cases (opNames ds)[j]? <;> simp [Entry.addAt]⟩
  | n :: ns, t, h1, h2, h3 => by
    obtain ⟨k, hk, ho⟩ := opcode_op hn (h1 n List.mem_cons_self)
    rw [List.nodup_cons] at h3
    obtain ⟨t', ht, hj⟩ := regUsr_at hn ns (register t k (.usr n)) (fun m hm => h1 m (List.mem_cons_of_mem _ hm))
      (fun m hm => h2 m (List.mem_cons_of_mem _ hm)) h3.2
    refine ⟨t', ?_, fun j => ?_⟩
    · simp only [regUsr, hk, if_pos (h2 n List.mem_cons_self)]
      exact ht
    · rw [hj j]
      have hops : ∀ i, (opNames ds)[i]? = some n → i = k := by
        intro i hi
        obtain ⟨b1, b2⟩ := List.getElem?_eq_some_iff.1 ho
        exact ((List.getElem?_inj b1 (opNames_nodup hn)).1 (ho.trans hi.symm)).symm
      by_cases hjk : j = k
      · subst hjk
        simp [register, ho, h3.1, Entry.addAt]
      · simp only [register, if_neg hjk]
        cases hx : (opNames ds)[j]? with
        | none => rfl
        | some m =>
          have hm : m ≠ n := fun e => hjk (hops j (e ▸ hx))
          simp [hm]

/-- What one initialisation does at a place. -/
def Entry.pass (e : Entry) (L : Lib) (n : String) : Entry :=
  (e.addAt .std (if n ∈ stdNames then some n else none)).addAt .usr (if n ∈ L.ops then some n else none)

theorem std_at {ds : List Decl} (hp : stdNames <+: opNames ds) (hn : (opNames ds).Nodup) {j : Nat} {n} (h : (opNames ds)[j]? = some n) :
    stdNames[j]? = if n ∈ stdNames then some n else none := by
  obtain ⟨r, hr⟩ := hp
  rw [← hr] at h hn
  by_cases hj : j < stdNames.length
  · rw [List.getElem?_append_left hj] at h
    rw [h, if_pos (List.mem_of_getElem? h)]
  · rw [List.getElem?_append_right (by omega)] at h
    rw [List.getElem?_eq_none (by omega), if_neg]
    intro hs
    exact (List.nodup_append.1 hn).2.2 n hs n (List.mem_of_getElem? h) rfl

theorem init_at {ds : List Decl} {L : Lib} (h : Proper ds L) (t : Tab) :
    ∃ t', init ds L t = some t' ∧ ∀ (j : Nat) n, (opNames ds)[j]? = some n → t' j = (t j).pass L n := by
  obtain ⟨t', h1, h2⟩ := regUsr_at h.names L.ops (regStd 0 stdNames t) h.decl h.fns h.ops
  refine ⟨t', h1, fun j n hj => ?_⟩
  rw [h2 j, regStd_at, hj, if_neg (by omega), Nat.sub_zero, std_at h.std (opNames_nodup h.names) hj]
  rfl

def passes (L : Lib) (n : String) : Nat → Entry → Entry
  | 0, e => e
  | m + 1, e => passes L n m (e.pass L n)

theorem inits_at {ds : List Decl} {L : Lib} (h : Proper ds L) : ∀ (m : Nat) (t : Tab),
    ∃ t', inits ds L m t = some t' ∧ ∀ (j : Nat) n, (opNames ds)[j]? = some n → t' j = passes L n m (t j)
  | 0, t => ⟨t, rfl, fun _ _ _ => rfl⟩
  | m + 1, t => by
    obtain ⟨t1, h1, h2⟩ := init_at h t
    obtain ⟨t2, h3, h4⟩ := inits_at h m t1
    refine ⟨t2, by simp [inits, h1, h3], fun j n hj => ?_⟩
    rw [h4 j n hj, h2 j n hj]
    rfl

theorem passes_fix {L : Lib} {n : String} {e : Entry} (h : e.pass L n = e) : ∀ m, passes L n m e = e
  | 0 => rfl
  | m + 1 => by rw [passes, h, passes_fix h m]

/-- After the first time an operator keeps its function; what is registered again is an overload. -/
theorem passes_calls (L : Lib) (n : String) (m : Nat) :
    (passes L n (m + 1) {}).calls = wanted L n ∨
    0 < m ∧ ∃ f, wanted L n = [f] ∧ (passes L n (m + 1) {}).calls = [f, f] := by
  by_cases h1 : n ∈ stdNames <;> by_cases h2 : n ∈ L.ops
  · left
    have e : (({} : Entry).pass L n) = ⟨some (.std n), some (.usr n)⟩ := by simp [Entry.pass, h1, h2, Entry.addAt, Entry.add]
    rw [passes, e, passes_fix (by simp [Entry.pass, h1, h2, Entry.addAt, Entry.add])]
    simp [Entry.calls, wanted, h1, h2]
  · have e : (({} : Entry).pass L n) = ⟨some (.std n), none⟩ := by simp [Entry.pass, h1, h2, Entry.addAt, Entry.add]
    rw [passes, e]
    cases m with
    | zero => left; simp [passes, Entry.calls, wanted, h1, h2]
    | succ m =>
      right
      have e2 : ((⟨some (.std n), none⟩ : Entry).pass L n) = ⟨some (.std n), some (.std n)⟩ := by simp [Entry.pass, h1, h2, Entry.addAt, Entry.add]
      refine ⟨by omega, .std n, by simp [wanted, h1, h2], ?_⟩
      rw [passes, e2, passes_fix (by simp [Entry.pass, h1, h2, Entry.addAt, Entry.add])]
      simp [Entry.calls]
  · have e : (({} : Entry).pass L n) = ⟨some (.usr n), none⟩ := by simp [Entry.pass, h1, h2, Entry.addAt, Entry.add]
    rw [passes, e]
    cases m with
    | zero => left; simp [passes, Entry.calls, wanted, h1, h2]
    | succ m =>
      right
      have e2 : ((⟨some (.usr n), none⟩ : Entry).pass L n) = ⟨some (.usr n), some (.usr n)⟩ := by simp [Entry.pass, h1, h2, Entry.addAt, Entry.add]
      refine ⟨by omega, .usr n, by simp [wanted, h1, h2], ?_⟩
      rw [passes, e2, passes_fix (by simp [Entry.pass, h1, h2, Entry.addAt, Entry.add])]
      simp [Entry.calls]
  · left
    have e : (({} : Entry).pass L n) = {} := by simp [Entry.pass, h1, h2, Entry.addAt]
    rw [passes_fix e]
    simp [Entry.calls, wanted, h1, h2]

theorem lookup_mem' : ∀ {l : List (String × Ref)} {n : String} {r : Ref}, lookup l n = some r → (n, r) ∈ l
  | [], _, _, h => by cases h
  | (a, q) :: l, n, r, h => by
    rw [lookup] at h
    cases hl : lookup l n with
    | some r' => rw [hl] at h; cases h; exact List.mem_cons_of_mem _ (lookup_mem' hl)
    | none =>
      rw [hl] at h
      by_cases ha : a = n
      · simp only [if_pos ha] at h; cases h; subst ha; exact List.mem_cons_self
      · simp only [if_neg ha] at h; cases h

theorem table_decl : ∀ {ds : List Decl} {i j : Nat} {n : String} {r : Ref}, (n, r) ∈ table i j ds → ∃ d ∈ ds, d.name = n
  | [], _, _, _, _, h => by cases h
  | d :: ds, i, j, n, r, h => by
    cases d <;>
    · rcases List.mem_cons.1 h with e | h
      · cases e; exact ⟨_, List.mem_cons_self, rfl⟩
      · obtain ⟨d, hd, e⟩ := table_decl h
        exact ⟨d, List.mem_cons_of_mem _ hd, e⟩

theorem opcode_decl {ds : List Decl} {n : String} {k : Nat} (h : opcode ds n = some k) : ∃ d ∈ ds, d.name = n := by
  rw [opcode] at h
  cases hl : lookup ((table 0 0 ds).filter fun e => isSys e.2) n with
  | some r => exact table_decl (List.mem_filter.1 (lookup_mem' hl)).1
  | none =>
    rw [hl] at h
    obtain ⟨r, hr, _⟩ := Option.map_eq_some_iff.1 h
    exact table_decl (lookup_mem' hr)

theorem regUsr_some {ds : List Decl} {fns : List String} : ∀ {ns : List String} {t t' : Tab}, regUsr ds fns ns t = some t' →
    ∀ n ∈ ns, n ∈ fns ∧ ∃ k, opcode ds n = some k
  | [], _, _, _, _, hn => by cases hn
  | a :: ns, t, t', h, n, hn => by
    rw [regUsr] at h
    cases hk : opcode ds a with
    | none => rw [hk] at h; cases h
    | some k =>
      rw [hk] at h
      by_cases ha : a ∈ fns
      · simp only [if_pos ha] at h
        rcases List.mem_cons.1 hn with rfl | hn
        · exact ⟨ha, k, hk⟩
        · exact regUsr_some h n hn
      · simp only [if_neg ha] at h
        cases h

/-- C173 in part: for a proper source and library the initialisation succeeds, and an operator calls the functions of its name, that
of the executive first; when the executive is initialised again, an operator with one function calls it a second time when it
fails.  Operators that have no function are not excluded.  With any source and library, when the initialisation succeeds all the
operators of the library are names of the source and have functions. -/
theorem C173_operators_partial (ds : List Decl) (L : Lib) (m : Nat) :
    (∀ t, inits ds L (m + 1) (fun _ => {}) = some t → ∀ n ∈ L.ops, n ∈ L.fns ∧ ∃ d ∈ ds, d.name = n) ∧ (Proper ds L →
    ∃ t, inits ds L (m + 1) (fun _ => {}) = some t ∧ ∀ n k, lookup (table 0 0 ds) n = some (.op k) →
      (t k).calls = wanted L n ∨ 0 < m ∧ ∃ f, wanted L n = [f] ∧ (t k).calls = [f, f]) := by
  refine ⟨fun t e n hn => ?_, fun h => ?_⟩
  · simp only [inits, init, Option.bind_eq_some_iff] at e
    obtain ⟨t1, e1, _⟩ := e
    obtain ⟨h1, k, hk⟩ := regUsr_some e1 n hn
    exact ⟨h1, opcode_decl hk⟩
  obtain ⟨t, h1, h2⟩ := inits_at h (m + 1) fun _ => {}
  refine ⟨t, h1, fun n k hk => ?_⟩
  have := (table_op (lookup_mem hk)).2
  rw [h2 k n (by simpa using this)]
  exact passes_calls L n m

/-- The library of the repository (usr_operators.cpp:103-152, 209-242). -/
def lib : Lib := ⟨["add", "sub", "mul", "div", "dis"], ["Init", "GetOperatorCount", "GetOperatorName", "add", "sub", "mul", "div", "dis", "GetProgramCount",
  "GetProgramName", "test_program", "auto_focus", "GetCallbackCount", "GetCallbackName", "print"]⟩

/-- No library. -/
def noLib : Lib := ⟨[], []⟩

/-- `std.replicode`, with a class, a function and an operator of a user. -/
def source : List Decl := .cls "_obj" 2 true :: stdNames.map .op ++ [.cls "ent" 9 false, .fn "_inj", .op "sq"]

def lib2 : Lib := ⟨lib.ops ++ ["sq"], lib.fns ++ ["sq"]⟩

/-- Two operators are declared in another order. -/
def swapped : List Decl := [.op "rnd", .op "_now"]

/-- A system class has the name of an operator. -/
def clash : List Decl := stdNames.map .op ++ [.op "sq", .cls "sq" 8 true, .op "sq"]

/-- C173 does not hold: the functions of the executive go by the order of the declarations; an operator that is declared may have no
function, and is called all the same; with the library of the repository the executive cannot be initialised twice; without one, an
operator that fails is tried again after the second time; and with a
system class of its name, the function of an operator becomes an overload of the operator with the opcode of the class. -/
theorem C173_operators_violated : ¬ C173_full ∧
    (∃ t, inits swapped noLib 1 (fun _ => {}) = some t ∧ lookup (table 0 0 swapped) "rnd" = some (.op 0) ∧ (t 0).calls = [.std "_now"]) ∧
    (∃ t, inits source lib 1 (fun _ => {}) = some t ∧ lookup (table 0 0 source) "sq" = some (.op 25) ∧ (t 25).calls = []) ∧
    (∃ t, init source lib (fun _ => {}) = some t ∧ init source lib.later t = none) ∧
    (∃ t, inits source noLib 2 (fun _ => {}) = some t ∧ lookup (table 0 0 source) "ins" = some (.op 18) ∧ (t 18).calls = [.std "ins", .std "ins"]) ∧
    ∃ t, inits clash lib2 1 (fun _ => {}) = some t ∧ lookup (table 0 0 clash) "sq" = some (.op 26) ∧ (t 26).calls = [] ∧
      lookup (table 0 0 clash) "add" = some (.op 8) ∧ (t 8).calls = [.std "add", .usr "sq"] := by
  have h1 : ∃ t, inits swapped noLib 1 (fun _ => {}) = some t ∧ lookup (table 0 0 swapped) "rnd" = some (.op 0) ∧ (t 0).calls = [.std "_now"] :=
    ⟨_, rfl, by decide +kernel, by decide +kernel⟩
  refine ⟨fun h => ?_, h1, ⟨_, rfl, by decide +kernel, by decide +kernel⟩, ⟨_, rfl, rfl⟩, ⟨_, rfl, by decide +kernel, by decide +kernel⟩,
    ⟨_, rfl, by decide +kernel, by decide +kernel, by decide +kernel, by decide +kernel⟩⟩
  obtain ⟨t, e, e1, e2⟩ := h1
  have := (h _ _ 0 t e _ _ e1).2
  rw [e2] at this
  revert this
  decide +kernel

theorem source_proper : Proper source lib2 where
  std := ⟨["sq"], by decide +kernel⟩
  names := by decide +kernel
  decl := by decide +kernel
  fns := by decide +kernel
  ops := by decide +kernel

theorem C173_nonvacuous :
    Proper source lib2 ∧ ∃ t, inits source lib2 1 (fun _ => {}) = some t ∧
      lookup (table 0 0 source) "sq" = some (.op 25) ∧ (t 25).calls = [.usr "sq"] ∧
      lookup (table 0 0 source) "add" = some (.op 8) ∧ (t 8).calls = [.std "add", .usr "add"] ∧
      lookup (table 0 0 source) "id" = some (.op 24) ∧ (t 24).calls = [.std "id"] :=
  ⟨source_proper, _, rfl, by decide +kernel, by decide +kernel, by decide +kernel, by decide +kernel, by decide +kernel, by decide +kernel⟩

end Verif.Oper
