import Verif.Counts.Model
/-!
# C46: requirement counts

A history is the list of what happened, newest first. The specification does not look at the state: it
says from the history alone which controllers of requirement models are in force.
-/
namespace Verif.Counts

/-! ## Specification -/

/-- The requirement models created during a history, oldest first; the `i`-th is model number `i`. -/
def created : List Op → List Req
  | [] => []
  | .create g p q :: h => created h ++ [⟨g, ⟨p, false⟩, ⟨q, false⟩⟩]
  | _ :: h => created h

/-- The primary controller of model `i` is no longer in force: the model was killed through one of its
controllers, or the view of the controller went away. -/
def gonePrim (h : List Op) (i : Nat) : Prop := .killPrim i ∈ h ∨ .killSec i ∈ h ∨ .dropPrim i ∈ h
def goneSec (h : List Op) (i : Nat) : Prop := .killPrim i ∈ h ∨ .killSec i ∈ h ∨ .dropSec i ∈ h
instance (h : List Op) (i : Nat) : Decidable (gonePrim h i) := by unfold gonePrim; infer_instance
instance (h : List Op) (i : Nat) : Decidable (goneSec h i) := by unfold goneSec; infer_instance

/-- Is a requirement of strength `strong` a requirement of kind `k`? -/
def counted (strong : Bool) (k : Kind) : Bool :=
  decide (k = .total ∨ (k = .strong ∧ strong = true) ∨ (k = .weak ∧ strong = false))

/-- Number of controllers of model `i` in force after `h` that are requirements of kind `k` for the
controller `r`. -/
def share (h : List Op) (r : Nat) (k : Kind) (i : Nat) : Nat :=
  match (created h)[i]? with
  | none => 0
  | some q =>
    if counted q.strong k then
      (if ¬ gonePrim h i ∧ q.prim.rhs = some r then 1 else 0) +
      (if ¬ goneSec h i ∧ q.sec.rhs = some r then 1 else 0)
    else 0

/-- `f 0 + … + f (n - 1)` -/
def total (f : Nat → Nat) : Nat → Nat
  | 0 => 0
  | n + 1 => total f n + f n

/-- Requirements of kind `k` in force for the controller `r` after `h`. -/
def inForce (h : List Op) (r : Nat) (k : Kind) : Nat := total (share h r k) (created h).length

/-- The model an operation other than a creation is about. -/
def about : Op → Option Nat
  | .create _ _ _ => none
  | .killPrim i => some i
  | .killSec i => some i
  | .dropPrim i => some i
  | .dropSec i => some i

/-- Nothing happens to a model before it exists. -/
def Valid (h : List Op) : Prop :=
  ∀ a op b i, h = a ++ op :: b → about op = some i → i < (created b).length

/-- C46 in full: the counts are the numbers of requirements in force. -/
def C46_full : Prop := ∀ h, Valid h → ∃ s, run h = some s ∧
  ∀ r k, inForce h r k < 2 ^ 32 → (s.cnt r k).toNat = inForce h r k

/-- Views are not removed otherwise than by killing, a model's secondary controller is killed at most
once, and never both the primary and the secondary one. (The primary one may be killed repeatedly.) -/
def Orderly (h : List Op) : Prop :=
  (∀ i, .dropPrim i ∉ h ∧ .dropSec i ∉ h) ∧
  ∀ a i b, h = a ++ .killSec i :: b → .killPrim i ∉ a ∧ .killPrim i ∉ b ∧ .killSec i ∉ b

/-! ## Proofs -/

theorem Valid.tail {op : Op} {h : List Op} (v : Valid (op :: h)) : Valid h :=
  fun a x b i he hx => v (op :: a) x b i (by rw [he]; rfl) hx
theorem Orderly.tail {op : Op} {h : List Op} (v : Orderly (op :: h)) : Orderly h := by
  refine ⟨fun i => ⟨fun hi => (v.1 i).1 (List.mem_cons_of_mem _ hi), fun hi => (v.1 i).2 (List.mem_cons_of_mem _ hi)⟩, ?_⟩
  intro a i b he
  have := v.2 (op :: a) i b (by rw [he]; rfl)
  exact ⟨fun hi => this.1 (List.mem_cons_of_mem _ hi), this.2⟩

theorem Valid.lt {h : List Op} (v : Valid h) {op : Op} {i : Nat} (hm : op ∈ h) (ha : about op = some i) :
    i < (created h).length := by
  obtain ⟨a, b, hab⟩ := List.append_of_mem hm
  have h1 := v a op b i hab ha
  have h2 : ∀ a : List Op, (created b).length ≤ (created (a ++ b)).length := by
    intro a
    induction a with
    | nil => simp
    | cons x a ih => cases x <;> simp only [List.cons_append, created, List.length_append, List.length_cons, List.length_nil] <;> omega
  have h3 := h2 (a ++ [op])
  rw [List.append_assoc, List.singleton_append, ← hab] at h3
  omega

theorem total_congr {f g : Nat → Nat} {n : Nat} (h : ∀ i, i < n → f i = g i) : total f n = total g n := by
  induction n with
  | zero => rfl
  | succ n ih => rw [total, total, ih (fun i hi => h i (by omega)), h n (by omega)]

theorem total_drop {f g : Nat → Nat} {n i : Nat} (hi : i < n) (h : ∀ j, j < n → j ≠ i → g j = f j)
    (h0 : g i = 0) : total f n = total g n + f i := by
  induction n with
  | zero => omega
  | succ n ih =>
    rw [total, total]
    by_cases hn : i = n
    · subst hn
      rw [h0, total_congr (f := f) (g := g) (fun j hj => (h j (by omega) (by omega)).symm)]; omega
    · rw [ih (by omega) (fun j hj hji => h j (by omega) hji), h n (by omega) (Ne.symm hn)]; omega

/-- What the state has to do with the history. -/
structure Tracks (h : List Op) (s : St) : Prop where
  len : s.reqs.length = (created h).length
  req : ∀ i q, (created h)[i]? = some q →
    s.reqs[i]? = some (Req.mk q.strong (Ctl.mk q.prim.rhs (decide (Op.killPrim i ∈ h))) (Ctl.mk q.sec.rhs (decide (Op.killSec i ∈ h))))
  cnt : ∀ r k, s.cnt r k = BitVec.ofNat 32 (inForce h r k)

theorem hits_counted (g : Bool) (k : Kind) : hits g k = counted g k := by
  cases g <;> cases k <;> rfl

theorem add_cnt (s : St) (g : Bool) (c : Ctl) (r : Nat) (k : Kind) :
    (addToRhs s g c).cnt r k = s.cnt r k + BitVec.ofNat 32 (if counted g k then (if c.rhs = some r then 1 else 0) else 0) := by
  unfold addToRhs
  cases hc : c.rhs with
  | none => simp
  | some r' =>
    simp only [add, hits_counted]
    by_cases h1 : r = r'
    · subst h1
      by_cases h2 : counted g k = true <;> simp [h2]
    · have : ¬ r' = r := fun h => h1 h.symm
      simp [h1, this]

theorem sub_cnt {s s' : St} {g : Bool} {c : Ctl} (hs : removeFromRhs s g c = some s') (r : Nat) (k : Kind) :
    s.cnt r k = s'.cnt r k + BitVec.ofNat 32 (if counted g k then (if c.rhs = some r then 1 else 0) else 0) := by
  unfold removeFromRhs at hs
  cases hc : c.rhs with
  | none => rw [hc] at hs; simp only at hs; cases hs; simp
  | some r' =>
    rw [hc] at hs; simp only at hs
    by_cases hi : c.inv = true
    · rw [if_pos hi] at hs; cases hs
    · rw [if_neg hi] at hs; cases hs
      simp only [remove, hits_counted]
      by_cases h1 : r = r'
      · subst h1
        by_cases h2 : counted g k = true <;> simp [h2, BitVec.sub_add_cancel]
      · have : ¬ r' = r := fun h => h1 h.symm
        simp [h1, this]

theorem add_reqs (s : St) (g : Bool) (c : Ctl) : (addToRhs s g c).reqs = s.reqs := by
  unfold addToRhs; cases c.rhs <;> rfl
theorem sub_reqs {s s' : St} {g : Bool} {c : Ctl} (hs : removeFromRhs s g c = some s') : s'.reqs = s.reqs := by
  unfold removeFromRhs at hs
  cases hc : c.rhs with
  | none => rw [hc] at hs; simp only at hs; cases hs; rfl
  | some r' =>
    rw [hc] at hs; simp only at hs
    by_cases hi : c.inv = true
    · rw [if_pos hi] at hs; cases hs
    · rw [if_neg hi] at hs; cases hs; rfl
theorem sub_ok (s : St) (g : Bool) (c : Ctl) (h : c.inv = false) : ∃ s', removeFromRhs s g c = some s' := by
  unfold removeFromRhs
  cases c.rhs with
  | none => exact ⟨_, rfl⟩
  | some r => simp [h]

theorem share_gone {h : List Op} {i : Nat} (hp : gonePrim h i) (hs : goneSec h i) (r : Nat) (k : Kind) :
    share h r k i = 0 := by
  unfold share
  cases (created h)[i]? with
  | none => rfl
  | some q => simp [hp, hs]

theorem share_live {h : List Op} {i : Nat} {q : Req} (hq : (created h)[i]? = some q) (hp : ¬ gonePrim h i)
    (hs : ¬ goneSec h i) (r : Nat) (k : Kind) :
    share h r k i = (if counted q.strong k then (if q.prim.rhs = some r then 1 else 0) else 0) +
      (if counted q.strong k then (if q.sec.rhs = some r then 1 else 0) else 0) := by
  unfold share; rw [hq]; simp only [hp, hs, not_false_eq_true, true_and]
  split <;> rfl

theorem cancel {x y z : BitVec 32} (h : x + z = y + z) : x = y := by
  have := congrArg (· - z) h
  simpa [BitVec.add_sub_cancel] using this

/-- One kill of a model that is in force. -/
theorem kill_inv {h : List Op} {s s1 s2 : St} {op : Op} {i : Nat} {q : Req} (iv : Tracks h s)
    (hop : op = .killPrim i ∨ op = .killSec i) (hq : (created h)[i]? = some q)
    (live : ¬ gonePrim h i ∧ ¬ goneSec h i) {c1 c2 : Ctl}
    (hc : (c1.rhs = q.prim.rhs ∧ c2.rhs = q.sec.rhs) ∨ (c1.rhs = q.sec.rhs ∧ c2.rhs = q.prim.rhs))
    (h1 : removeFromRhs s q.strong c1 = some s1) (h2 : removeFromRhs s1 q.strong c2 = some s2) (r : Nat) (k : Kind) :
    s2.cnt r k = BitVec.ofNat 32 (inForce (op :: h) r k) := by
  have hcr : created (op :: h) = created h := by rcases hop with rfl | rfl <;> rfl
  have hlt : i < (created h).length := (List.getElem?_eq_some_iff.1 hq).1
  have hg : ∀ j, j ≠ i → (gonePrim (op :: h) j ↔ gonePrim h j) ∧ (goneSec (op :: h) j ↔ goneSec h j) := by
    intro j hj
    rcases hop with rfl | rfl <;> simp [gonePrim, goneSec, hj]
  have hi : gonePrim (op :: h) i ∧ goneSec (op :: h) i := by
    rcases hop with rfl | rfl <;> simp [gonePrim, goneSec]
  have ht : inForce h r k = inForce (op :: h) r k + share h r k i := by
    unfold inForce
    rw [hcr]
    apply total_drop hlt
    · intro j _ hj
      unfold share
      rw [hcr]
      cases (created h)[j]? with
      | none => rfl
      | some q => simp only [(hg j hj).1, (hg j hj).2]
    · exact share_gone hi.1 hi.2 r k
  have e1 := sub_cnt h1 r k
  have e2 := sub_cnt h2 r k
  rw [iv.cnt, ht, share_live hq live.1 live.2] at e1
  rw [e2] at e1
  simp only [BitVec.ofNat_add] at e1
  rcases hc with ⟨a, b⟩ | ⟨a, b⟩
  · rw [a, b] at e1
    rw [BitVec.add_comm (BitVec.ofNat 32 (if counted q.strong k = true then if q.prim.rhs = some r then 1 else 0 else 0)),
      ← BitVec.add_assoc] at e1
    exact (cancel (cancel e1)).symm
  · rw [a, b, ← BitVec.add_assoc] at e1
    exact (cancel (cancel e1)).symm

theorem inv_run {h : List Op} (v : Valid h) (o : Orderly h) : ∃ s, run h = some s ∧ Tracks h s := by
  induction h with
  | nil => exact ⟨start, rfl, rfl, by intro i q hq; simp [created] at hq, fun r k => rfl⟩
  | cons op h ih =>
    obtain ⟨s, hs, iv⟩ := ih v.tail o.tail
    simp only [run, hs, Option.bind_some]
    cases op with
    | create g p q =>
      refine ⟨_, rfl, ?_, ?_, ?_⟩
      · simp [created, add_reqs, iv.len]
      · intro i x hx
        simp only [created] at hx
        simp only [add_reqs, List.mem_cons, reduceCtorEq, false_or]
        rcases Nat.lt_or_ge i (created h).length with hi | hi
        · rw [List.getElem?_append_left hi] at hx
          rw [List.getElem?_append_left (by rw [iv.len]; exact hi)]
          exact iv.req i x hx
        · have hi2 : i = (created h).length := by
            have := (List.getElem?_eq_some_iff.1 hx).1
            simp at this <;> omega
          subst hi2
          rw [List.getElem?_append_right (by omega)] at hx
          rw [List.getElem?_append_right (by rw [iv.len]), iv.len]
          simp only [Nat.sub_self, List.getElem?_cons_zero, Option.some.injEq] at hx ⊢
          subst hx
          have n1 : Op.killPrim (created h).length ∉ h := fun hm => by
            have := v.tail.lt hm rfl; omega
          have n2 : Op.killSec (created h).length ∉ h := fun hm => by
            have := v.tail.lt hm rfl; omega
          simp [n1, n2]
      · intro r k
        have hn : ∀ i, about i = some (created h).length → i ∉ h := fun i ha hm => by
          have := v.tail.lt hm ha; omega
        have hgp : ∀ j, gonePrim (.create g p q :: h) j ↔ gonePrim h j := by simp [gonePrim]
        have hgs : ∀ j, goneSec (.create g p q :: h) j ↔ goneSec h j := by simp [goneSec]
        have ht : inForce (.create g p q :: h) r k = inForce h r k +
            ((if counted g k then (if p = some r then 1 else 0) else 0) +
             (if counted g k then (if q = some r then 1 else 0) else 0)) := by
          unfold inForce
          simp only [created, List.length_append, List.length_cons, List.length_nil, Nat.zero_add, total]
          congr 1
          · apply total_congr
            intro i hi
            unfold share
            simp only [created]
            rw [List.getElem?_append_left hi]
            cases (created h)[i]? with
            | none => rfl
            | some q => simp only [hgp, hgs]
          · have l1 : ¬ gonePrim (.create g p q :: h) (created h).length := by
              rw [hgp]; unfold gonePrim
              rintro (h1 | h1 | h1) <;> exact hn _ rfl h1
            have l2 : ¬ goneSec (.create g p q :: h) (created h).length := by
              rw [hgs]; unfold goneSec
              rintro (h1 | h1 | h1) <;> exact hn _ rfl h1
            exact share_live (q := ⟨g, ⟨p, false⟩, ⟨q, false⟩⟩) (by simp [created]) l1 l2 r k
        rw [ht]
        simp only
        rw [add_cnt, add_cnt, iv.cnt, BitVec.ofNat_add, BitVec.ofNat_add, BitVec.add_assoc]
    | killPrim i =>
      have hi : i < (created h).length := v [] (.killPrim i) h i rfl rfl
      have hq : (created h)[i]? = some (created h)[i] := List.getElem?_eq_getElem hi
      have hr := iv.req i _ hq
      generalize (created h)[i] = q at hq hr
      have nS : Op.killSec i ∉ h := by
        intro hm
        obtain ⟨a, b, hab⟩ := List.append_of_mem hm
        exact (o.2 (.killPrim i :: a) i b (by rw [hab]; rfl)).1 (List.mem_cons_self)
      have nD := o.tail.1 i
      simp only [step, hr]
      by_cases hk : Op.killPrim i ∈ h
      · rw [if_pos (by simp [hk])]
        refine ⟨s, rfl, iv.len, ?_, ?_⟩
        · intro j x hx
          rw [iv.req j x hx]
          simp only [List.mem_cons, Op.killPrim.injEq, reduceCtorEq, false_or]
          by_cases hj : j = i
          · subst hj; simp [hk]
          · simp [hj]
        · intro r k
          rw [iv.cnt]; congr 1
          unfold inForce
          apply total_congr
          intro j _
          unfold share
          simp only [created]
          have hgp : gonePrim (.killPrim i :: h) j ↔ gonePrim h j := by
            by_cases hj : j = i
            · subst hj; simp [gonePrim, hk]
            · simp [gonePrim, hj]
          have hgs : goneSec (.killPrim i :: h) j ↔ goneSec h j := by
            by_cases hj : j = i
            · subst hj; simp [goneSec, hk]
            · simp [goneSec, hj]
          cases (created h)[j]? with
          | none => rfl
          | some q => simp only [hgp, hgs]
      · rw [if_neg (by simp [hk])]
        obtain ⟨s1, h1⟩ := sub_ok s q.strong ⟨q.prim.rhs, decide (Op.killPrim i ∈ h)⟩ (by simp [hk])
        obtain ⟨s2, h2⟩ := sub_ok s1 q.strong ⟨q.sec.rhs, decide (Op.killSec i ∈ h)⟩ (by simp [nS])
        simp only [h1, h2, Option.bind_some]
        have rr : s2.reqs = s.reqs := by rw [sub_reqs h2, sub_reqs h1]
        refine ⟨_, rfl, ?_, ?_, ?_⟩
        · simp [rr, iv.len, created]
        · intro j x hx
          simp only [created] at hx
          simp only [rr]
          by_cases hj : j = i
          · subst hj
            rw [hx] at hq; cases hq
            rw [List.getElem?_set_self (by rw [iv.len]; exact hi)]
            simp [setPrim, nS]
          · rw [List.getElem?_set_ne (Ne.symm hj), iv.req j x hx]; simp [hj]
        · intro r k
          change s2.cnt r k = _
          exact kill_inv iv (.inl rfl) hq (by simp [gonePrim, goneSec, hk, nS, nD.1, nD.2]) (c1 := ⟨q.prim.rhs, decide (Op.killPrim i ∈ h)⟩) (c2 := ⟨q.sec.rhs, decide (Op.killSec i ∈ h)⟩) (.inl ⟨rfl, rfl⟩) h1 h2 r k
    | killSec i =>
      have hi : i < (created h).length := v [] (.killSec i) h i rfl rfl
      have hq : (created h)[i]? = some (created h)[i] := List.getElem?_eq_getElem hi
      have hr := iv.req i _ hq
      generalize (created h)[i] = q at hq hr
      obtain ⟨_, nP, nS⟩ := o.2 [] i h rfl
      have nD := o.tail.1 i
      simp only [step, hr]
      obtain ⟨s1, h1⟩ := sub_ok s q.strong ⟨q.sec.rhs, decide (Op.killSec i ∈ h)⟩ (by simp [nS])
      obtain ⟨s2, h2⟩ := sub_ok s1 q.strong ⟨q.prim.rhs, decide (Op.killPrim i ∈ h)⟩ (by simp [nP])
      simp only [h1, h2, Option.bind_some]
      have rr : s2.reqs = s.reqs := by rw [sub_reqs h2, sub_reqs h1]
      refine ⟨_, rfl, ?_, ?_, ?_⟩
      · simp [rr, iv.len, created]
      · intro j x hx
        simp only [created] at hx
        simp only [rr]
        by_cases hj : j = i
        · subst hj
          rw [hx] at hq; cases hq
          rw [List.getElem?_set_self (by rw [iv.len]; exact hi)]
          simp [setSec, nP]
        · rw [List.getElem?_set_ne (Ne.symm hj), iv.req j x hx]; simp [hj]
      · intro r k
        change s2.cnt r k = _
        exact kill_inv iv (.inr rfl) hq (by simp [gonePrim, goneSec, nP, nS, nD.1, nD.2]) (c1 := ⟨q.sec.rhs, decide (Op.killSec i ∈ h)⟩) (c2 := ⟨q.prim.rhs, decide (Op.killPrim i ∈ h)⟩) (.inr ⟨rfl, rfl⟩) h1 h2 r k
    | dropPrim i => exact absurd List.mem_cons_self (o.1 i).1
    | dropSec i => exact absurd List.mem_cons_self (o.1 i).2

/-- C46, missing: histories in which both controllers of a model are killed, the secondary one is killed
twice, or a view goes away without killing. -/
theorem C46_counts_partial (h : List Op) (v : Valid h) (o : Orderly h) : ∃ s, run h = some s ∧
    ∀ r k, inForce h r k < 2 ^ 32 → (s.cnt r k).toNat = inForce h r k := by
  obtain ⟨s, hs, iv⟩ := inv_run v o
  refine ⟨s, hs, fun r k hb => ?_⟩
  rw [iv.cnt, BitVec.toNat_ofNat, Nat.mod_eq_of_lt hb]

/-- C46 fails. Killing the secondary controller of a model does not invalidate the primary one, so that
the primary one can be killed as well: that reads the emptied vector of the secondary one (undefined
behaviour), or, where only one of them is a requirement, takes the requirement off twice: the count
becomes 2^32 - 1. A requirement model whose view goes away without being killed is still counted. -/
theorem C46_counts_violated : ¬ C46_full ∧
    run [.killPrim 0, .killSec 0, .create true (some 1) (some 2)] = none ∧
    run [.killSec 0, .killPrim 0, .create true (some 1) (some 2)] = none ∧
    (∃ s, run [.killPrim 0, .killSec 0, .create true (some 1) none] = some s ∧
      (s.cnt 1 .strong).toNat = 2 ^ 32 - 1 ∧
      inForce [.killPrim 0, .killSec 0, .create true (some 1) none] 1 .strong = 0) ∧
    (∃ s, run [.dropSec 0, .dropPrim 0, .create false (some 1) (some 2)] = some s ∧
      (s.cnt 1 .weak).toNat = 1 ∧
      inForce [.dropSec 0, .dropPrim 0, .create false (some 1) (some 2)] 1 .weak = 0) := by
  refine ⟨fun hf => ?_, rfl, rfl, ⟨_, rfl, rfl, rfl⟩, ⟨_, rfl, rfl, rfl⟩⟩
  obtain ⟨s, hs, _⟩ := hf [.killPrim 0, .killSec 0, .create true (some 1) (some 2)] (by
    intro a op b i he ha
    rcases a with _ | ⟨x, _ | ⟨y, _ | ⟨z, a⟩⟩⟩
    · injection he with h1 h2; subst h1; subst h2; cases ha; decide
    · injection he with h1 h2; injection h2 with h2 h3; subst h2; subst h3; cases ha; decide
    · injection he with h1 h2; injection h2 with h2 h3; injection h3 with h3 h4; subst h3; cases ha
    · simp at he)
  cases hs

/-- The hypotheses of `C46_counts_partial` are met: two requirements for the same model, one killed
twice through its primary controller. -/
theorem C46_nonvacuous :
    let h : List Op := [.killPrim 0, .killPrim 0, .create false (some 1) none, .create true (some 1) (some 2)]
    Valid h ∧ Orderly h ∧ inForce h 1 .total = 1 ∧ inForce h 1 .weak = 1 ∧ inForce h 1 .strong = 0 := by
  refine ⟨?_, ⟨?_, ?_⟩, rfl, rfl, rfl⟩
  · intro a op b i he ha
    rcases a with _ | ⟨x, _ | ⟨y, _ | ⟨z, _ | ⟨w, a⟩⟩⟩⟩
    · injection he with h1 h2; subst h1; subst h2; cases ha; decide
    · injection he with h1 h2; injection h2 with h2 h3; subst h2; subst h3; cases ha; decide
    · injection he with h1 h2; injection h2 with h2 h3; injection h3 with h3 h4; subst h3; cases ha
    · injection he with h1 h2; injection h2 with h2 h3; injection h3 with h3 h4; injection h4 with h4 h5; subst h4; cases ha
    · simp at he
  · intro i; simp
  · intro a i b he
    have : Op.killSec i ∈ [Op.killPrim 0, .killPrim 0, .create false (some 1) none, .create true (some 1) (some 2)] := by
      rw [he]; simp
    simp at this

end Verif.Counts
