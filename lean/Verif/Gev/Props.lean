import Verif.Gev.Spec
/-!
# The guards of models (C167, C168)
-/
namespace Verif.Gev

mutual
theorem eval_ok (O : Ops) (env : Env) : ∀ e e', eval O env e = (e', true) → ∃ v, sem O env e = some v ∧ value env e' = some v
  | .lit v, e', h => by cases h; exact ⟨v, rfl, rfl⟩
  | .res v, e', h => by cases h; exact ⟨v, rfl, rfl⟩
  | .var x, e', h => by
    simp only [eval, Prod.mk.injEq] at h
    obtain ⟨rfl, h⟩ := h
    obtain ⟨v, hv⟩ := Option.isSome_iff_exists.mp h
    exact ⟨v, hv, hv⟩
  | .op f as, e', h => by
    simp only [eval] at h
    cases hb : evals O env as with
    | mk bs ok =>
      rw [hb] at h
      cases ok with
      | false => cases h
      | true =>
        obtain ⟨vs, h1, h2⟩ := evals_ok O env as bs hb
        simp only [h2, Option.bind_some] at h
        cases hr : O f vs with
        | none => rw [hr] at h; cases h
        | some r =>
          rw [hr] at h
          cases h
          exact ⟨r, by simp only [sem, h1, Option.bind_some, hr], rfl⟩

theorem evals_ok (O : Ops) (env : Env) : ∀ as bs, evals O env as = (bs, true) → ∃ vs, sems O env as = some vs ∧ values env bs = some vs
  | .nil, bs, h => by cases h; exact ⟨[], rfl, rfl⟩
  | .cons e as, bs, h => by
    simp only [evals] at h
    cases he : eval O env e with
    | mk e' ok =>
      rw [he] at h
      cases ok with
      | false => cases h
      | true =>
        cases ha : evals O env as with
        | mk cs ok =>
          rw [ha] at h
          cases h
          obtain ⟨v, h1, h2⟩ := eval_ok O env e e' he
          obtain ⟨vs, h3, h4⟩ := evals_ok O env as cs ha
          exact ⟨v :: vs, by simp [sems, h1, h3], by simp [values, h2, h4]⟩
end

mutual
theorem eval_some (O : Ops) (env : Env) : ∀ e v, sem O env e = some v → ∃ e', eval O env e = (e', true)
  | .lit v, _, _ => ⟨_, rfl⟩
  | .res v, _, _ => ⟨_, rfl⟩
  | .var x, v, h => ⟨.var x, by
    have h' : env x = some v := h
    simp [eval, h']⟩
  | .op f as, v, h => by
    simp only [sem] at h
    obtain ⟨vs, h1, h2⟩ := Option.bind_eq_some_iff.mp h
    obtain ⟨bs, hb⟩ := evals_some O env as vs h1
    obtain ⟨us, h3, h4⟩ := evals_ok O env as bs hb
    rw [h1] at h3
    cases h3
    exact ⟨.res v, by simp only [eval, hb, h4, Option.bind_some, h2]⟩

theorem evals_some (O : Ops) (env : Env) : ∀ as vs, sems O env as = some vs → ∃ bs, evals O env as = (bs, true)
  | .nil, _, _ => ⟨_, rfl⟩
  | .cons e as, vs, h => by
    simp only [sems] at h
    obtain ⟨v, h1, h⟩ := Option.bind_eq_some_iff.mp h
    obtain ⟨us, h2, _⟩ := Option.map_eq_some_iff.mp h
    obtain ⟨e', he⟩ := eval_some O env e v h1
    obtain ⟨bs, hb⟩ := evals_some O env as us h2
    exact ⟨.cons e' bs, by simp only [evals, he, hb]⟩
end

/-- An operator that is evaluated is replaced by its value. -/
theorem eval_op {O : Ops} {env : Env} {f : Nat} {as : Args} {v : V} (h : sem O env (.op f as) = some v) : eval O env (.op f as) = (.res v, true) := by
  obtain ⟨e', he⟩ := eval_some O env _ v h
  obtain ⟨u, h1, h2⟩ := eval_ok O env _ e' he
  rw [h] at h1
  cases h1
  rw [he]
  simp only [eval] at he
  cases hb : evals O env as with
  | mk bs ok =>
    rw [hb] at he
    cases ok with
    | false => cases he
    | true =>
      cases hr : (values env bs).bind (O f) with
      | none => simp only [hr] at he; cases he
      | some r =>
        simp only [hr] at he
        cases he
        cases h2
        rfl

/-- Values that assignments bind. -/
def V.binds : V → Bool
  | .num _ => true
  | .obj _ => true
  | .time _ => true
  | .dur _ => true
  | _ => false

/-- What is assigned: numbers, objects, and operators. -/
def Expr.right : Expr → Prop
  | .lit (.num _) => True
  | .lit (.obj _) => True
  | .op _ _ => True
  | _ => False

/-- The operator at the top yields a number or a structure. -/
def Expr.yields (O : Ops) : Expr → Prop
  | .op f _ => ∀ vs v, O f vs = some v → v.binds = true
  | _ => True

theorem assign_some {O : Ops} {env : Env} {x : Nat} {e : Expr} {v : V} (hr : e.right) (hy : e.yields O) (h : sem O env e = some v) :
    ∃ e', assign O env x e = (env.put x v, e', true) := by
  cases e with
  | lit u =>
    cases h
    cases v with
    | num n => exact ⟨_, rfl⟩
    | obj o => exact ⟨_, rfl⟩
    | _ => cases hr
  | res u => cases hr
  | var y => cases hr
  | op f as =>
    have he := eval_op h
    simp only [sem] at h
    obtain ⟨vs, _, h2⟩ := Option.bind_eq_some_iff.mp h
    have hb := hy vs v h2
    refine ⟨.res v, ?_⟩
    simp only [assign, evalSet, he]
    cases v <;> first | rfl | cases hb

theorem assign_none {O : Ops} {env : Env} {x : Nat} {e : Expr} (hr : e.right) (h : sem O env e = none) (hx : env x = none) :
    ∃ e', assign O env x e = (env, e', false) := by
  cases e with
  | lit u => cases h
  | res u => cases h
  | var y => cases hr
  | op f as =>
    cases he : eval O env (.op f as) with
    | mk e' ok =>
      cases ok with
      | true =>
        obtain ⟨v, h1, _⟩ := eval_ok O env _ e' he
        rw [h] at h1
        cases h1
      | false =>
        refine ⟨e', ?_⟩
        simp only [assign, evalSet, he, hx, Option.isSome_none]

mutual
/-- The variables of an expression. -/
def Expr.vars : Expr → List Nat
  | .lit _ => []
  | .res _ => []
  | .var x => [x]
  | .op _ as => as.vars
def Args.vars : Args → List Nat
  | .nil => []
  | .cons e as => e.vars ++ as.vars
end

mutual
theorem sem_congr (O : Ops) (env env' : Env) : ∀ e, (∀ x ∈ Expr.vars e, env x = env' x) → sem O env e = sem O env' e
  | .lit v, _ => rfl
  | .res v, _ => rfl
  | .var x, h => h x (by simp [Expr.vars])
  | .op f as, h => by simp only [sem]; rw [sems_congr O env env' as h]
theorem sems_congr (O : Ops) (env env' : Env) : ∀ as, (∀ x ∈ Args.vars as, env x = env' x) → sems O env as = sems O env' as
  | .nil, _ => rfl
  | .cons e as, h => by
    simp only [sems]
    rw [sem_congr O env env' e fun x hx => h x (by simp [Args.vars, hx]), sems_congr O env env' as fun x hx => h x (by simp [Args.vars, hx])]
end

def Guard.vars : Guard → List Nat
  | .set _ e => e.vars
  | .test e => e.vars

/-- The variables guards assign. -/
def assigned : List Guard → List Nat
  | [] => []
  | .set x _ :: gs => x :: assigned gs
  | .test _ :: gs => assigned gs

/-- Each guard assigns a number, an object or the result of an operator that yields such or a timestamp or a duration, to a
variable that neither is bound nor is used before, and that no other guard assigns. -/
def Sound (O : Ops) : Env → List Guard → Prop
  | _, [] => True
  | env, .set x e :: gs => e.right ∧ e.yields O ∧ env x = none ∧ x ∉ e.vars ∧ x ∉ assigned gs ∧ (∀ y ∈ e.vars, y ∉ assigned gs) ∧
      ∀ v, Sound O (env.put x v) gs
  | env, .test e :: gs => (∀ y ∈ e.vars, y ∉ assigned gs) ∧ Sound O env gs

theorem put_other {env : Env} {x y : Nat} {v : V} (h : y ≠ x) : env.put x v y = env y := if_neg h
theorem put_self {env : Env} {x : Nat} {v : V} : env.put x v x = some v := if_pos rfl

theorem run_comp {O : Ops} (gs : List Guard) : ∀ (env env' : Env), Sound O env gs → (run O env gs = some env' ↔ Comp O env gs env') := by
  induction gs with
  | nil =>
    intro env env' _
    constructor
    · intro h; cases h; exact .nil
    · intro h; cases h; rfl
  | cons g gs ih =>
    intro env env' hs
    cases g with
    | set x e =>
      obtain ⟨h1, h2, h3, _, _, _, h5⟩ := hs
      cases hv : sem O env e with
      | none =>
        obtain ⟨e', he⟩ := assign_none (x := x) h1 hv h3
        constructor
        · intro h; simp only [run, he] at h; cases h
        · intro h
          cases h with
          | set h => rw [hv] at h; cases h
      | some v =>
        obtain ⟨e', he⟩ := assign_some (x := x) h1 h2 hv
        simp only [run, he]
        rw [ih _ _ (h5 v)]
        constructor
        · exact fun h => .set hv (Or.inl h3) h
        · intro h
          cases h with
          | set h _ hc =>
            rw [hv] at h
            cases h
            exact hc
    | test e =>
      cases he : eval O env e with
      | mk e' ok =>
        cases ok with
        | false =>
          constructor
          · intro h; simp only [run, he] at h; cases h
          · intro h
            cases h with
            | test h =>
              obtain ⟨e2, h2⟩ := eval_some O env e _ h
              rw [he] at h2
              cases h2
        | true =>
          obtain ⟨v, h1, h2⟩ := eval_ok O env e e' he
          simp only [run, he, h2]
          by_cases hf : v = .bool false
          · subst hf
            rw [if_pos rfl]
            constructor
            · intro h; cases h
            · intro h
              cases h with
              | test h hn => rw [h1] at h; cases h; exact absurd rfl hn
          · rw [if_neg (by simpa using hf), ih _ _ hs.2]
            constructor
            · exact fun h => .test h1 hf h
            · intro h
              cases h with
              | test _ _ hc => exact hc

theorem comp_keeps {O : Ops} {gs : List Guard} {env env' : Env} (h : Comp O env gs env') : ∀ x, x ∉ assigned gs → env' x = env x := by
  induction h with
  | nil => intro x _; rfl
  | @set env y e v gs env' _ _ _ ih =>
    intro x hx
    simp only [assigned, List.mem_cons, not_or] at hx
    rw [ih x hx.2, put_other hx.1]
  | test _ _ _ ih => exact fun x hx => ih x hx

theorem comp_grows {O : Ops} {gs : List Guard} {env env' : Env} (h : Comp O env gs env') : ∀ x v, env x = some v → env' x = some v := by
  induction h with
  | nil => exact fun _ _ h => h
  | @set env y e v gs env' _ h2 _ ih =>
    intro x u hx
    refine ih x u ?_
    by_cases hxy : x = y
    · subst hxy
      rw [put_self]
      rcases h2 with h2 | h2
      · rw [h2] at hx; cases hx
      · rw [← h2, hx]
    · rw [put_other hxy]; exact hx
  | test _ _ _ ih => exact ih

theorem comp_holds {O : Ops} {gs : List Guard} {env env' : Env} (h : Comp O env gs env') : Sound O env gs → ∀ g ∈ gs, Holds O env' g := by
  induction h with
  | nil => intro _ g hg; cases hg
  | @set env x e v gs env' h1 _ h3 ih =>
    intro ⟨_, _, _, s1, s2, s3, s4⟩ g hg
    rcases List.mem_cons.mp hg with rfl | hg
    · refine ⟨v, ?_, ?_⟩
      · rw [← h1]
        refine sem_congr O _ _ e fun y hy => ?_
        rw [comp_keeps h3 y (s3 y hy), put_other (fun (h : y = x) => s1 (h ▸ hy))]
      · rw [comp_keeps h3 x s2, put_self]
    · exact ih (s4 v) g hg
  | @test env e v gs env' h1 h2 h3 ih =>
    intro ⟨s1, s2⟩ g hg
    rcases List.mem_cons.mp hg with rfl | hg
    · refine ⟨v, ?_, h2⟩
      rw [← h1]
      exact sem_congr O _ _ e fun y hy => comp_keeps h3 y (s1 y hy)
    · exact ih s2 g hg

/-! ## C167 -/

/-- The guards of a model whose left-hand and right-hand sides are well-ordered: what succeeds is what can be evaluated in the order
of the guards, then all guards hold, and what was bound is kept. Missing from `C167_full`: guards that use variables of guards after
them, variables assigned twice or bound already, variables assigned to variables, and results of other kinds. -/
theorem C167_guards_partial (O : Ops) (env : Env) (gs : List Guard) (hs : Sound O env gs) :
    (∀ env', run O env gs = some env' ↔ Comp O env gs env') ∧
    ∀ env', run O env gs = some env' → (∀ g ∈ gs, Holds O env' g) ∧ (∀ x v, env x = some v → env' x = some v) ∧
      ∀ x, x ∉ assigned gs → env' x = env x := by
  refine ⟨fun env' => run_comp gs env env' hs, fun env' h => ?_⟩
  have hc := (run_comp gs env env' hs).mp h
  exact ⟨comp_holds hc hs, comp_grows hc, comp_keeps hc⟩

/-- Operators for examples: 0 adds numbers, 1 compares, 2 adds a duration to a timestamp, 4 gives a timestamp; the others fail. -/
def exOps : Ops
  | 0, [.num m, .num n] => some (.num (m + n))
  | 1, [v, w] => some (.bool (v == w))
  | 2, [.time t, .dur d] => some (.time (t + d))
  | 4, [.num n] => some (.time n)
  | _, _ => none

def two (f : Nat) (e1 e2 : Expr) : Expr := .op f (.cons e1 (.cons e2 .nil))
def one (f : Nat) (e : Expr) : Expr := .op f (.cons e .nil)

def noEnv : Env := fun _ => none

/-- The second guard gives the variable that the first one uses. -/
def swapped : List Guard := [.set 0 (two 0 (.var 1) (.lit (.num 1))), .set 1 (.lit (.num 5))]

theorem swapped_comp : ∃ env', Comp exOps noEnv swapped.reverse env' :=
  ⟨_, .set (v := .num 5) rfl (Or.inl rfl) (.set (v := .num 6) rfl (Or.inl rfl) .nil)⟩

theorem swapped_run : run exOps noEnv swapped = none := rfl

/-- C167 does not hold. Guards are evaluated in the order they come in, only; assigning a variable, bound or not, or a truth value,
succeeds and binds nothing; a variable that is bound already gets another value; and a guard that cannot be evaluated is deemed to hold when its variable is
bound. -/
theorem C167_guards_violated :
    ¬ C167_full ∧
    (run exOps noEnv swapped = none ∧ ∃ env', Comp exOps noEnv swapped.reverse env') ∧
    (∃ env', run exOps (noEnv.put 1 (.num 5)) [.set 0 (.var 1)] = some env' ∧ env' 0 = none) ∧
    (∃ env', run exOps noEnv [.set 0 (.var 1)] = some env' ∧ env' 0 = none) ∧
    (∃ env', run exOps noEnv [.set 0 (two 1 (.lit (.num 2)) (.lit (.num 2)))] = some env' ∧ env' 0 = none) ∧
    (∃ env', run exOps (noEnv.put 0 (.num 1)) [.set 0 (.lit (.num 2))] = some env' ∧ env' 0 = some (.num 2)) ∧
    (∃ env', run exOps (noEnv.put 0 (.num 1)) [.set 0 (two 0 (.var 1) (.lit (.num 1)))] = some env' ∧
      ¬ Holds exOps env' (.set 0 (two 0 (.var 1) (.lit (.num 1))))) := by
  refine ⟨fun h => ?_, ⟨rfl, swapped_comp⟩, ⟨_, rfl, rfl⟩, ⟨_, rfl, rfl⟩, ⟨_, rfl, rfl⟩, ⟨_, rfl, rfl⟩, ⟨_, rfl, ?_⟩⟩
  · obtain ⟨env', hc⟩ := swapped_comp
    have := (h exOps noEnv swapped).2 _ env' (List.reverse_perm _) hc
    rw [swapped_run] at this
    cases this
  · rintro ⟨v, h, _⟩
    cases h

/-- Guards as models have them: a sum, a condition, a timestamp. -/
def exGuards : List Guard :=
  [.set 3 (two 0 (.var 1) (.lit (.num 4))), .test (two 1 (.var 3) (.lit (.num 9))), .set 4 (two 2 (.var 2) (.lit (.dur 100)))]

def exEnv : Env := (noEnv.put 1 (.num 5)).put 2 (.time 1000)

theorem exSound : Sound exOps exEnv exGuards := by
  refine ⟨trivial, ?_, rfl, by simp [two, Expr.vars, Args.vars], by simp [assigned], by simp [two, Expr.vars, Args.vars, assigned], fun v => ⟨?_, trivial, ?_, ?_, ?_, ?_, ?_, fun _ => trivial⟩⟩
  · intro vs v h
    simp only [exOps] at h
    split at h
    all_goals first | contradiction | (cases h; rfl)
  · simp [two, Expr.vars, Args.vars, assigned]
  · intro vs v h
    simp only [exOps] at h
    split at h
    all_goals first | contradiction | (cases h; rfl)
  · rfl
  · simp [two, Expr.vars, Args.vars]
  · simp [assigned]
  · simp [assigned]

/-- The guards of `C167_guards_partial`: they succeed, and fail when the condition is false or a variable is missing. -/
theorem C167_nonvacuous :
    Sound exOps exEnv exGuards ∧
    (∃ env', run exOps exEnv exGuards = some env' ∧ env' 3 = some (.num 9) ∧ env' 4 = some (.time 1100)) ∧
    run exOps (exEnv.put 1 (.num 6)) exGuards = none ∧ run exOps (noEnv.put 1 (.num 5)) exGuards = none :=
  ⟨exSound, ⟨_, rfl, rfl, rfl⟩, rfl, rfl⟩

/-! ## C168 -/

theorem lastSet_mem (x : Nat) (gs : List Guard) : ∀ r e, gs.foldl (fun r g => match g with
    | .set y e => if y = x then some e else r
    | .test _ => r) r = some e → .set x e ∈ gs ∨ r = some e := by
  induction gs with
  | nil => exact fun r e h => Or.inr h
  | cons g gs ih =>
    intro r e h
    rcases ih _ e h with h | h
    · exact Or.inl (List.mem_cons_of_mem _ h)
    · cases g with
      | test _ => exact Or.inr h
      | set y e' =>
        simp only at h
        split at h
        · rename_i hy; cases h; subst hy; exact Or.inl List.mem_cons_self
        · exact Or.inr h

theorem lastSet_isSome (x : Nat) (gs : List Guard) : ∀ r, (r.isSome = true ∨ ∃ e, Guard.set x e ∈ gs) → (gs.foldl (fun r g => match g with
    | .set y e => if y = x then some e else r
    | .test _ => r) r : Option Expr).isSome = true := by
  induction gs with
  | nil =>
    rintro r (h | ⟨e, h⟩)
    · exact h
    · cases h
  | cons g gs ih =>
    intro r h
    refine ih _ ?_
    rcases h with h | ⟨e, h⟩
    · left
      cases g with
      | test _ => exact h
      | set y e' =>
        simp only
        split
        · rfl
        · exact h
    · rcases List.mem_cons.mp h with rfl | h
      · left; simp
      · exact Or.inr ⟨e, h⟩

/-- A variable is assigned in one way. -/
def Once (gs : List Guard) (x : Nat) : Prop := ∀ e e', .set x e ∈ gs → .set x e' ∈ gs → e = e'

theorem lastSet_once {gs : List Guard} {x : Nat} {e : Expr} (h : Once gs x) (hm : .set x e ∈ gs) : lastSet gs x = some e := by
  have := lastSet_isSome x gs none (Or.inr ⟨e, hm⟩)
  obtain ⟨e', he⟩ := Option.isSome_iff_exists.mp this
  rcases lastSet_mem x gs none e' he with hm' | h'
  · rw [h e e' hm hm']; exact he
  · cases h'

theorem lastSet_some {gs : List Guard} {x : Nat} {e : Expr} (he : lastSet gs x = some e) : .set x e ∈ gs := by
  rcases lastSet_mem x gs none e he with h | h
  · exact h
  · cases h

mutual
theorem sem_vars (O : Ops) (env : Env) : ∀ e v, sem O env e = some v → ∀ x ∈ Expr.vars e, (env x).isSome = true
  | .lit _, _, _, x, hx => by simp [Expr.vars] at hx
  | .res _, _, _, x, hx => by simp [Expr.vars] at hx
  | .var y, v, h, x, hx => by
    simp only [Expr.vars, List.mem_singleton] at hx
    subst hx
    have h' : env x = some v := h
    rw [h']; rfl
  | .op f as, v, h, x, hx => by
    simp only [sem] at h
    obtain ⟨vs, h1, _⟩ := Option.bind_eq_some_iff.mp h
    exact sems_vars O env as vs h1 x hx
theorem sems_vars (O : Ops) (env : Env) : ∀ as vs, sems O env as = some vs → ∀ x ∈ Args.vars as, (env x).isSome = true
  | .nil, _, _, x, hx => by simp [Args.vars] at hx
  | .cons e as, vs, h, x, hx => by
    simp only [sems] at h
    obtain ⟨v, h1, h⟩ := Option.bind_eq_some_iff.mp h
    obtain ⟨us, h2, _⟩ := Option.map_eq_some_iff.mp h
    simp only [Args.vars, List.mem_append] at hx
    rcases hx with hx | hx
    · exact sem_vars O env e v h1 x hx
    · exact sems_vars O env as us h2 x hx
end

mutual
/-- No operator of the expression fails in bindings as described where its variables are bound. -/
def Expr.total (O : Ops) (P : Env → Prop) : Expr → Prop
  | .op f as => as.total O P ∧ ∀ env, P env → (∀ x ∈ as.vars, (env x).isSome = true) → (sem O env (.op f as)).isSome = true
  | _ => True
def Args.total (O : Ops) (P : Env → Prop) : Args → Prop
  | .nil => True
  | .cons e as => e.total O P ∧ as.total O P
end

def Le (env env' : Env) : Prop := ∀ x v, env x = some v → env' x = some v

theorem sem_mono {O : Ops} {env env' : Env} (h : Le env env') {e : Expr} {v : V} (he : sem O env e = some v) : sem O env' e = some v := by
  rw [← he]
  refine (sem_congr O env env' e fun x hx => ?_).symm
  obtain ⟨u, hu⟩ := Option.isSome_iff_exists.mp (sem_vars O env e v he x hx)
  rw [hu, h x u hu]

mutual
/-- Evaluating does not change what is to be evaluated. -/
theorem eval_later {O : Ops} {P : Env → Prop} {env env2 : Env} (hP : P env) (hl : Le env env2) :
    ∀ e, e.total O P → sem O env2 (eval O env e).1 = sem O env2 e
  | .lit _, _ => rfl
  | .res _, _ => rfl
  | .var _, _ => rfl
  | .op f as, ht => by
    have ih := evals_later hP hl as ht.1
    simp only [eval]
    cases hb : evals O env as with
    | mk bs ok =>
      rw [hb] at ih
      cases ok with
      | false => simp only [sem, ih]
      | true =>
        obtain ⟨vs, h1, h2⟩ := evals_ok O env as bs hb
        have := ht.2 env hP (sems_vars O env as vs h1)
        obtain ⟨r, hr⟩ := Option.isSome_iff_exists.mp this
        have hm := sem_mono hl hr
        simp only [sem, h1, Option.bind_some] at hr
        simp only [h2, Option.bind_some, hr]
        rw [hm]
        rfl
theorem evals_later {O : Ops} {P : Env → Prop} {env env2 : Env} (hP : P env) (hl : Le env env2) :
    ∀ as, as.total O P → sems O env2 (evals O env as).1 = sems O env2 as
  | .nil, _ => rfl
  | .cons e as, ht => by
    have h1 := eval_later hP hl e ht.1
    have h2 := evals_later hP hl as ht.2
    simp only [evals]
    cases he : eval O env e with
    | mk e' ok =>
      rw [he] at h1
      cases ok with
      | false => simp only [sems, h1]
      | true =>
        cases ha : evals O env as with
        | mk bs ok =>
          rw [ha] at h2
          simp only [sems, h1, h2]
end

/-- An operator that yields timestamps. -/
def Expr.times (O : Ops) : Expr → Prop
  | .op f _ => ∀ vs v, O f vs = some v → ∃ t, v = .time t
  | _ => False

theorem Expr.times.sem {O : Ops} {env : Env} {e : Expr} {v : V} (ht : e.times O) (h : sem O env e = some v) : ∃ t, v = .time t := by
  cases e with
  | op f as =>
    simp only [Gev.sem] at h
    obtain ⟨vs, _, h2⟩ := Option.bind_eq_some_iff.mp h
    exact ht vs v h2
  | _ => cases ht

theorem Expr.times.right {O : Ops} {e : Expr} (ht : e.times O) : e.right ∧ e.yields O := by
  cases e with
  | op f as => exact ⟨trivial, fun vs v h => by obtain ⟨t, rfl⟩ := ht vs v h; rfl⟩
  | _ => cases ht

theorem assign_times {O : Ops} {env : Env} {x : Nat} {e : Expr} {v : V} (ht : e.times O) (h : sem O env e = some v) :
    ∃ t e', v = .time t ∧ assign O env x e = (env.put x (.time t), e', true) := by
  obtain ⟨t, rfl⟩ := ht.sem h
  obtain ⟨e', he⟩ := assign_some (x := x) ht.right.1 ht.right.2 h
  exact ⟨t, e', rfl, he⟩

/-- When it cannot be evaluated yet, the assignment is kept for later. -/
theorem assign_later {O : Ops} {P : Env → Prop} {env env2 : Env} {x : Nat} {e : Expr} (ht : e.times O) (hn : sem O env e = none) (hx : env x = none)
    (hP : P env) (hl : Le env env2) (hT : e.total O P) :
    ∃ e', assign O env x e = (env, e', false) ∧ e'.times O ∧ sem O env2 e' = sem O env2 e := by
  obtain ⟨e', he⟩ := assign_none (x := x) ht.right.1 hn hx
  refine ⟨e', he, ?_⟩
  have hlat := eval_later hP hl e hT
  cases e with
  | op f as =>
    have h1 : (eval O env (.op f as)).1 = e' := by
      simp only [assign, evalSet] at he
      cases hev : eval O env (.op f as) with
      | mk a ok =>
        rw [hev] at he
        cases ok with
        | true => simp at he
        | false => simp only [Prod.mk.injEq] at he; exact he.2.1
    rw [h1] at hlat
    refine ⟨?_, hlat⟩
    rw [← h1]
    simp only [eval]
    cases hb : evals O env as with
    | mk bs ok =>
      cases ok with
      | false => exact ht
      | true =>
        exfalso
        obtain ⟨vs, h3, h4⟩ := evals_ok O env as bs hb
        have := hT.2 env hP (sems_vars O env as vs h3)
        rw [hn] at this
        cases this
  | _ => cases ht

mutual
/-- What cannot be evaluated lacks a variable, and goes on lacking it. -/
theorem eval_stuck {O : Ops} {P : Env → Prop} {env : Env} (hP : P env) : ∀ e e', e.total O P → eval O env e = (e', false) → ∃ y ∈ e'.vars, env y = none
  | .lit _, _, _, h => by cases h
  | .res _, _, _, h => by cases h
  | .var x, e', _, h => by
    simp only [eval, Prod.mk.injEq] at h
    obtain ⟨rfl, h⟩ := h
    exact ⟨x, by simp [Expr.vars], by simpa using h⟩
  | .op f as, e', ht, h => by
    simp only [eval] at h
    cases hb : evals O env as with
    | mk bs ok =>
      rw [hb] at h
      cases ok with
      | false =>
        simp only [Prod.mk.injEq, and_true] at h
        subst h
        exact evals_stuck hP as bs ht.1 hb
      | true =>
        exfalso
        obtain ⟨vs, h3, h4⟩ := evals_ok O env as bs hb
        obtain ⟨r, hr⟩ := Option.isSome_iff_exists.mp (ht.2 env hP (sems_vars O env as vs h3))
        simp only [sem, h3, Option.bind_some] at hr
        simp [h4, hr] at h
theorem evals_stuck {O : Ops} {P : Env → Prop} {env : Env} (hP : P env) : ∀ as bs, as.total O P → evals O env as = (bs, false) → ∃ y ∈ bs.vars, env y = none
  | .nil, _, _, h => by cases h
  | .cons e as, bs, ht, h => by
    simp only [evals] at h
    cases he : eval O env e with
    | mk e' ok =>
      rw [he] at h
      cases ok with
      | false =>
        simp only [Prod.mk.injEq, and_true] at h
        subst h
        obtain ⟨y, hy, hn⟩ := eval_stuck hP e e' ht.1 he
        exact ⟨y, by simp [Args.vars, hy], hn⟩
      | true =>
        cases ha : evals O env as with
        | mk cs ok =>
          rw [ha] at h
          simp only [Prod.mk.injEq] at h
          obtain ⟨rfl, rfl⟩ := h
          obtain ⟨y, hy, hn⟩ := evals_stuck hP as cs ht.2 ha
          exact ⟨y, by simp [Args.vars, hy], hn⟩
end

theorem assign_stuck {O : Ops} {P : Env → Prop} {env : Env} {x : Nat} {e : Expr} (ht : e.times O) (hn : sem O env e = none) (hx : env x = none)
    (hP : P env) (hT : e.total O P) : ∃ e', assign O env x e = (env, e', false) ∧ e'.times O ∧ ∃ y ∈ e'.vars, env y = none := by
  obtain ⟨e', he, ht', _⟩ := assign_later (env2 := env) ht hn hx hP (fun _ _ h => h) hT
  refine ⟨e', he, ht', ?_⟩
  cases e with
  | op f as =>
    refine eval_stuck hP (.op f as) e' hT ?_
    simp only [assign, evalSet] at he
    cases hev : eval O env (.op f as) with
    | mk a ok =>
      rw [hev] at he
      cases ok with
      | true => simp at he
      | false => simp only [Prod.mk.injEq] at he; rw [he.2.1]
  | _ => cases ht

/-- The bindings that timings may be computed in: those at first, and timestamps for the two variables. -/
def Around (env : Env) (a b : Nat) (env' : Env) : Prop :=
  (∀ x, x ≠ a → x ≠ b → env' x = env x) ∧ ∀ x, x = a ∨ x = b → env' x = none ∨ ∃ t, env' x = some (.time t)

/-- The guards give each of the two timings at most once, by operators that yield timestamps and do not fail, from one another
and from variables that guards do not assign. -/
def Timed (O : Ops) (env : Env) (a b : Nat) (gs : List Guard) : Prop :=
  a ≠ b ∧ Around env a b env ∧ ∀ x, x = a ∨ x = b → Once gs x ∧ ∀ e, .set x e ∈ gs →
    e.times O ∧ e.total O (Around env a b) ∧ ∀ y ∈ e.vars, y ≠ a → y ≠ b → ∀ e', .set y e' ∉ gs

section
variable {O : Ops} {env : Env} {a b : Nat} {gs : List Guard}

theorem Timed.symm (h : Timed O env a b gs) : Timed O env b a gs := by
  obtain ⟨h1, ⟨h2, h3⟩, h4⟩ := h
  have hA : ∀ env', Around env b a env' ↔ Around env a b env' := fun env' =>
    ⟨fun ⟨p, q⟩ => ⟨fun x u v => p x v u, fun x h => q x h.symm⟩, fun ⟨p, q⟩ => ⟨fun x u v => p x v u, fun x h => q x h.symm⟩⟩
  refine ⟨Ne.symm h1, (hA env).mpr ⟨h2, h3⟩, fun x hx => ?_⟩
  obtain ⟨ho, h5⟩ := h4 x hx.symm
  refine ⟨ho, fun e he => ?_⟩
  obtain ⟨h6, h7, h8⟩ := h5 e he
  refine ⟨h6, ?_, fun y hy u v => h8 y hy v u⟩
  have : Around env b a = Around env a b := funext fun env' => propext (hA env')
  rw [this]; exact h7

/-- A timing that follows from guards, and is not bound: its guard, and what its guard uses. -/
theorem der_guard (h : Timed O env a b gs) {x : Nat} (hx : x = a ∨ x = b) {v : V} (hd : Der O env gs x v) (hn : env x = none) :
    ∃ e, .set x e ∈ gs ∧ x ∉ e.vars ∧ ∀ y ∈ e.vars, y ≠ a → y ≠ b → (env y).isSome = true := by
  have hself : ∀ e, .set x e ∈ gs → x ∈ e.vars → ∀ y w, Der O env gs y w → y ≠ x := by
    intro e he hv y w hd
    induction hd with
    | given h1 => rintro rfl; rw [hn] at h1; cases h1
    | @guard y e1 w env1 h1 _ _ h4 ih =>
      rintro rfl
      have := (h.2.2 y hx).1 e e1 he h1
      subst this
      obtain ⟨u, hu⟩ := Option.isSome_iff_exists.mp (sem_vars O env1 e w h4 y hv)
      exact ih y u hu rfl
  have hd' := hd
  cases hd with
  | given h1 => rw [hn] at h1; cases h1
  | @guard _ e _ env1 h1 _ h3 h4 =>
    refine ⟨e, h1, fun hv => hself e h1 hv x v hd' rfl, fun y hy ya yb => ?_⟩
    obtain ⟨u, hu⟩ := Option.isSome_iff_exists.mp (sem_vars O env1 e v h4 y hy)
    cases h3 y u hu with
    | given h5 => rw [h5]; rfl
    | guard _ h5 => exact absurd h5 (((h.2.2 x hx).2 e h1).2.2 y hy ya yb _)

/-- Two timings that use one another do not follow. -/
theorem der_cycle (h : Timed O env a b gs) {ea eb : Expr} (ha : .set a ea ∈ gs) (hb : .set b eb ∈ gs) (hab : b ∈ ea.vars) (hba : a ∈ eb.vars)
    (na : env a = none) (nb : env b = none) {y : Nat} {w : V} (hd : Der O env gs y w) : y ≠ a ∧ y ≠ b := by
  induction hd with
  | given h1 => exact ⟨(by rintro rfl; rw [na] at h1; cases h1), (by rintro rfl; rw [nb] at h1; cases h1)⟩
  | @guard y e w env1 h1 _ _ h4 ih =>
    refine ⟨?_, ?_⟩
    · rintro rfl
      have := (h.2.2 y (Or.inl rfl)).1 e ea h1 ha
      subst this
      obtain ⟨u, hu⟩ := Option.isSome_iff_exists.mp (sem_vars O env1 e w h4 b hab)
      exact (ih b u hu).2 rfl
    · rintro rfl
      have := (h.2.2 y (Or.inr rfl)).1 e eb h1 hb
      subst this
      obtain ⟨u, hu⟩ := Option.isSome_iff_exists.mp (sem_vars O env1 e w h4 a hba)
      exact (ih a u hu).1 rfl

theorem isTime_iff {env : Env} {x : Nat} : isTime env x = true ↔ ∃ t, env x = some (.time t) := by
  unfold isTime
  split
  · rename_i t h; exact ⟨fun _ => ⟨t, h⟩, fun _ => rfl⟩
  · rename_i h
    exact ⟨fun h' => (by cases h'), fun ⟨t, ht⟩ => absurd ht (h t)⟩

theorem around_none (h : Around env a b env) {x : Nat} (hx : x = a ∨ x = b) (hn : ¬ isTime env x = true) : env x = none := by
  rcases h.2 x hx with h | ⟨t, h⟩
  · exact h
  · exact absurd (isTime_iff.mpr ⟨t, h⟩) hn

theorem around_put {env env1 : Env} (h : Around env a b env1) {x : Nat} (hx : x = a ∨ x = b) (t : Int) : Around env a b (env1.put x (.time t)) := by
  refine ⟨fun y ya yb => ?_, fun y hy => ?_⟩
  · rw [put_other, h.1 y ya yb]
    rintro rfl
    rcases hx with hx | hx
    · exact ya hx
    · exact yb hx
  · by_cases hxy : y = x
    · subst hxy; exact Or.inr ⟨t, put_self⟩
    · rw [put_other hxy]; exact h.2 y hy

theorem le_put {env : Env} {x : Nat} {v : V} (h : env x = none) : Le env (env.put x v) := by
  intro y w hy
  rw [put_other]
  · exact hy
  · rintro rfl; rw [h] at hy; cases hy

/-- Expressions of timings have values as soon as what they use is bound. -/
theorem timed_sem (h : Timed O env a b gs) {x : Nat} (hx : x = a ∨ x = b) {e : Expr} (he : .set x e ∈ gs) {env1 : Env} (hA : Around env a b env1)
    (hv : ∀ y ∈ e.vars, (env1 y).isSome = true) : ∃ v, sem O env1 e = some v := by
  obtain ⟨h1, h2, _⟩ := (h.2.2 x hx).2 e he
  cases e with
  | op f as => exact Option.isSome_iff_exists.mp (h2.2 env1 hA hv)
  | _ => cases h1

/-- Bindings all of which follow. -/
def Ders (O : Ops) (env : Env) (gs : List Guard) (env1 : Env) : Prop := ∀ y w, env1 y = some w → Der O env gs y w

theorem ders_put {env1 : Env} {x : Nat} {v : V} (h : Ders O env gs env1) (hd : Der O env gs x v) : Ders O env gs (env1.put x v) := by
  intro y w hy
  by_cases hxy : y = x
  · subst hxy; rw [put_self] at hy; cases hy; exact hd
  · rw [put_other hxy] at hy; exact h y w hy

/-- The last part: the beginning of the interval. -/
theorem timings_tail (h : Timed O env a b gs) {env1 : Env} {t : Int} (hb : env1 b = some (.time t)) (hA : Around env a b env1) (hD : Ders O env gs env1)
    (hae : ∀ v, env a = some v → env1 a = some v) (hna : env a = none → env1 a = none) :
    let r := if isTime env1 a then some env1 else match lastSet gs a with
      | none => none
      | some ea => match assign O env1 a ea with
        | (_, _, false) => none
        | (env2, _, true) => some env2
    (∀ env', r = some env' → ∃ s t, env' a = some (.time s) ∧ env' b = some (.time t) ∧ Der O env gs a (.time s) ∧ Der O env gs b (.time t)) ∧
    ∀ v, Der O env gs a v → r.isSome = true := by
  intro r
  by_cases hi : isTime env1 a = true
  · obtain ⟨s, hs⟩ := isTime_iff.mp hi
    have hr : r = some env1 := if_pos hi
    refine ⟨fun env' h' => ?_, fun v _ => by rw [hr]; rfl⟩
    rw [hr] at h'
    cases h'
    exact ⟨s, t, hs, hb, hD a _ hs, hD b _ hb⟩
  · have n1 : env1 a = none := by
      rcases hA.2 a (Or.inl rfl) with h | ⟨s, h⟩
      · exact h
      · exact absurd (isTime_iff.mpr ⟨s, h⟩) hi
    have na : env a = none := by
      cases hq : env a with
      | none => rfl
      | some v => rw [hae v hq] at n1; cases n1
    have hr : r = match lastSet gs a with
      | none => none
      | some ea => match assign O env1 a ea with
        | (_, _, false) => none
        | (env2, _, true) => some env2 := if_neg hi
    cases hl : lastSet gs a with
    | none =>
      rw [hl] at hr
      refine ⟨fun env' h' => (by rw [hr] at h'; cases h'), fun v hd => ?_⟩
      obtain ⟨e, he, _⟩ := der_guard h (Or.inl rfl) hd na
      rw [lastSet_once (h.2.2 a (Or.inl rfl)).1 he] at hl
      cases hl
    | some ea =>
      rw [hl] at hr
      have hm := lastSet_some hl
      have ht := ((h.2.2 a (Or.inl rfl)).2 ea hm).1
      cases hs : sem O env1 ea with
      | none =>
        obtain ⟨e', he⟩ := assign_none (x := a) ht.right.1 hs n1
        simp only [he] at hr
        refine ⟨fun env' h' => (by rw [hr] at h'; cases h'), fun v hd => ?_⟩
        exfalso
        obtain ⟨e, he, h1, h2⟩ := der_guard h (Or.inl rfl) hd na
        have := (h.2.2 a (Or.inl rfl)).1 e ea he hm
        subst this
        obtain ⟨w, hw⟩ := timed_sem h (Or.inl rfl) hm hA (fun y hy => by
          by_cases ya : y = a
          · subst ya; exact absurd hy h1
          · by_cases yb : y = b
            · subst yb; rw [hb]; rfl
            · rw [hA.1 y ya yb]; exact h2 y hy ya yb)
        rw [hs] at hw
        cases hw
      | some v =>
        obtain ⟨s, e', rfl, he⟩ := assign_times (x := a) ht hs
        simp only [he] at hr
        refine ⟨fun env' h' => ?_, fun v _ => by rw [hr]; rfl⟩
        rw [hr] at h'
        cases h'
        exact ⟨s, t, put_self, by rw [put_other (Ne.symm h.1)]; exact hb, .guard env1 hm na hD hs, hD b _ hb⟩

/-- C168 for guards whose operators do not fail on timestamps: the timings are computed if and only if they follow, from what is bound or
from one another, and they are what follows. Missing from `C168_full`: timings that use variables other guards assign, timings given
twice or by something else than an operator that yields timestamps, and operators that fail. -/
theorem C168_timings_partial (h : Timed O env a b gs) :
    (∀ env', timings O env a b gs = some env' →
      ∃ s t, env' a = some (.time s) ∧ env' b = some (.time t) ∧ Der O env gs a (.time s) ∧ Der O env gs b (.time t)) ∧
    ∀ s t, Der O env gs a (.time s) → Der O env gs b (.time t) → (timings O env a b gs).isSome = true := by
  have hA := h.2.1
  have hD : Ders O env gs env := fun y w hy => .given hy
  by_cases hib : isTime env b = true
  · obtain ⟨t, ht⟩ := isTime_iff.mp hib
    have := timings_tail h ht hA hD (fun _ h => h) (fun h => h)
    simp only [timings, before, if_pos hib]
    exact ⟨this.1, fun s _ hs _ => this.2 _ hs⟩
  have nb := around_none hA (Or.inr rfl) hib
  have Tb := h.2.2 b (Or.inr rfl)
  have Ta := h.2.2 a (Or.inl rfl)
  simp only [timings, before, if_neg hib]
  cases hlb : lastSet gs b with
  | none =>
    refine ⟨fun env' h' => (by cases h'), fun s t _ hd => ?_⟩
    obtain ⟨e, he, _⟩ := der_guard h (Or.inr rfl) hd nb
    rw [lastSet_once Tb.1 he] at hlb
    cases hlb
  | some eb =>
    have hmb := lastSet_some hlb
    obtain ⟨tb, totb, _⟩ := Tb.2 eb hmb
    cases hsb : sem O env eb with
    | some v =>
      obtain ⟨t, e', rfl, he⟩ := assign_times (x := b) tb hsb
      have hdb : Der O env gs b (.time t) := .guard env hmb nb hD hsb
      simp only [he]
      have := timings_tail h (env1 := env.put b (.time t)) put_self (around_put hA (Or.inr rfl) t) (ders_put hD hdb)
        (fun v hv => by rw [put_other h.1]; exact hv) (fun hv => by rw [put_other h.1]; exact hv)
      exact ⟨this.1, fun s _ hs _ => this.2 _ hs⟩
    | none =>
      cases hla : lastSet gs a with
      | none =>
        obtain ⟨e', he⟩ := assign_none (x := b) tb.right.1 hsb nb
        simp only [he]
        refine ⟨fun env' h' => (by cases h'), fun s t ha hb => ?_⟩
        exfalso
        obtain ⟨e, h1, h2, h3⟩ := der_guard h (Or.inr rfl) hb nb
        have := Tb.1 e eb h1 hmb
        subst this
        have haa : (env a).isSome = true := by
          cases ha with
          | given h1 => rw [h1]; rfl
          | guard _ h1 => rw [lastSet_once Ta.1 h1] at hla; cases hla
        obtain ⟨w, hw⟩ := timed_sem h (Or.inr rfl) hmb hA (fun y hy => by
          by_cases ya : y = a
          · subst ya; exact haa
          · by_cases yb : y = b
            · subst yb; exact absurd hy h2
            · exact h3 y hy ya yb)
        rw [hsb] at hw
        cases hw
      | some ea =>
        have hma := lastSet_some hla
        obtain ⟨ta, tota, _⟩ := Ta.2 ea hma
        by_cases na : env a = none
        · cases hsa : sem O env ea with
          | none =>
            obtain ⟨e', he⟩ := assign_none (x := b) tb.right.1 hsb nb
            obtain ⟨e2, he2⟩ := assign_none (x := a) ta.right.1 hsa na
            simp only [he, he2]
            refine ⟨fun env' h' => (by cases h'), fun s t ha hb => ?_⟩
            exfalso
            obtain ⟨e, h1, h2, h3⟩ := der_guard h (Or.inr rfl) hb nb
            have := Tb.1 e eb h1 hmb
            subst this
            obtain ⟨f, h4, h5, h6⟩ := der_guard h (Or.inl rfl) ha na
            have := Ta.1 f ea h4 hma
            subst this
            have hab : b ∈ f.vars := by
              refine Classical.byContradiction fun hc => ?_
              obtain ⟨w, hw⟩ := timed_sem h (Or.inl rfl) hma hA (fun y hy => h6 y hy (fun q => h5 (q ▸ hy)) (fun q => hc (q ▸ hy)))
              rw [hsa] at hw
              cases hw
            have hba : a ∈ e.vars := by
              refine Classical.byContradiction fun hc => ?_
              obtain ⟨w, hw⟩ := timed_sem h (Or.inr rfl) hmb hA (fun y hy => h3 y hy (fun q => hc (q ▸ hy)) (fun q => h2 (q ▸ hy)))
              rw [hsb] at hw
              cases hw
            exact (der_cycle h hma hmb hab hba na nb ha).1 rfl
          | some v =>
            obtain ⟨s, e2, rfl, he2⟩ := assign_times (x := a) ta hsa
            have hda : Der O env gs a (.time s) := .guard env hma na hD hsa
            have hl : Le env (env.put a (.time s)) := le_put na
            obtain ⟨eb1, he, tb1, hlat⟩ := assign_later (x := b) tb hsb nb hA hl totb
            have hA2 := around_put hA (x := a) (Or.inl rfl) s
            have nb2 : env.put a (.time s) b = none := by rw [put_other (Ne.symm h.1)]; exact nb
            cases hsb2 : sem O (env.put a (.time s)) eb with
            | none =>
              rw [hsb2] at hlat
              obtain ⟨e3, he3⟩ := assign_none (x := b) tb1.right.1 hlat nb2
              simp only [he, he2, he3]
              refine ⟨fun env' h' => (by cases h'), fun s t _ hb => ?_⟩
              exfalso
              obtain ⟨e, h1, h2, h3⟩ := der_guard h (Or.inr rfl) hb nb
              have := Tb.1 e eb h1 hmb
              subst this
              obtain ⟨w, hw⟩ := timed_sem h (Or.inr rfl) hmb hA2 (fun y hy => by
                by_cases ya : y = a
                · subst ya; rw [put_self]; rfl
                · rw [put_other ya]; exact h3 y hy ya (fun q => h2 (q ▸ hy)))
              rw [hsb2] at hw
              cases hw
            | some w =>
              rw [hsb2] at hlat
              obtain ⟨t, rfl⟩ := tb.sem hsb2
              obtain ⟨t', e3, ht', he3⟩ := assign_times (x := b) tb1 hlat
              cases ht'
              have hdb : Der O env gs b (.time t) := .guard _ hmb nb (ders_put hD hda) hsb2
              have hia : isTime ((env.put a (.time s)).put b (.time t)) a = true := isTime_iff.mpr ⟨s, by rw [put_other h.1, put_self]⟩
              simp only [he, he2, he3, if_pos hia]
              refine ⟨fun env' h' => ?_, fun _ _ _ _ => rfl⟩
              cases h'
              exact ⟨s, t, by rw [put_other h.1, put_self], put_self, hda, hdb⟩
        · obtain ⟨eb1, he, tb1, y, hy, hyn⟩ := assign_stuck (x := b) tb hsb nb hA totb
          have hya : y ≠ a := fun q => na (q ▸ hyn)
          have hfin : ∀ env2 : Env, env2 y = none → env2 b = none → ∃ e3, assign O env2 b eb1 = (env2, e3, false) := by
            intro env2 h1 h2
            refine assign_none tb1.right.1 ?_ h2
            cases hq : sem O env2 eb1 with
            | none => rfl
            | some w =>
              have := sem_vars O env2 eb1 w hq y hy
              rw [h1] at this
              cases this
          have hno : ∀ s t, Der O env gs a (.time s) → Der O env gs b (.time t) → False := by
            intro s t _ hb
            obtain ⟨e, h1, h2, h3⟩ := der_guard h (Or.inr rfl) hb nb
            have := Tb.1 e eb h1 hmb
            subst this
            obtain ⟨w, hw⟩ := timed_sem h (Or.inr rfl) hmb hA (fun y hy => by
              by_cases ya : y = a
              · subst ya; exact Option.isSome_iff_ne_none.mpr na
              · exact h3 y hy ya (fun q => h2 (q ▸ hy)))
            rw [hsb] at hw
            cases hw
          cases hsa : sem O env ea with
          | some v =>
            obtain ⟨s, e2, rfl, he2⟩ := assign_times (x := a) ta hsa
            obtain ⟨e3, he3⟩ := hfin (env.put a (.time s)) (by rw [put_other hya]; exact hyn) (by rw [put_other (Ne.symm h.1)]; exact nb)
            simp only [he, he2, he3]
            exact ⟨fun env' h' => (by cases h'), fun s t h1 h2 => (hno s t h1 h2).elim⟩
          | none =>
            obtain ⟨e3, he3⟩ := hfin env hyn nb
            have he2 : ∃ e2, assign O env a ea = (env, e2, true) := by
              cases ea with
              | op f as =>
                cases hev : eval O env (.op f as) with
                | mk e' ok =>
                  cases ok with
                  | true =>
                    obtain ⟨v, h1, _⟩ := eval_ok O env _ e' hev
                    rw [hsa] at h1
                    cases h1
                  | false =>
                    refine ⟨e', ?_⟩
                    simp only [assign, evalSet, hev, Option.isSome_iff_ne_none.mpr na]
              | _ => cases ta
            obtain ⟨e2, he2⟩ := he2
            simp only [he, he2, he3]
            exact ⟨fun env' h' => (by cases h'), fun s t h1 h2 => (hno s t h1 h2).elim⟩
end

/-- The beginning of the interval is computed from a variable that another guard assigns. -/
def third : List Guard := [.set 5 (.lit (.num 7)), .set 0 (one 4 (.var 5)), .set 1 (two 2 (.var 0) (.lit (.dur 10)))]

theorem third_der5 : Der exOps noEnv third 5 (.num 7) :=
  .guard (e := .lit (.num 7)) noEnv (by simp [third]) rfl (fun _ _ h => by cases h) rfl

theorem third_der0 : Der exOps noEnv third 0 (.time 7) :=
  .guard (e := one 4 (.var 5)) (noEnv.put 5 (.num 7)) (by simp [third]) rfl (ders_put (fun _ _ h => by cases h) third_der5) rfl

theorem third_der1 : Der exOps noEnv third 1 (.time 17) :=
  .guard (e := two 2 (.var 0) (.lit (.dur 10))) (noEnv.put 0 (.time 7)) (by simp [third]) rfl (ders_put (fun _ _ h => by cases h) third_der0) rfl

/-- The operator that gives the end of the interval fails. -/
def failing : List Guard := [.set 1 (.op 3 .nil), .set 0 (one 4 (.lit (.num 3)))]

/-- C168 does not hold. Timings that follow by way of a third variable are not computed; and when the operator for the end of the
interval fails, its second evaluation is taken for a success, with the end of the interval unbound. -/
theorem C168_timings_violated :
    ¬ C168_full ∧
    (Der exOps noEnv third 0 (.time 7) ∧ Der exOps noEnv third 1 (.time 17) ∧ timings exOps noEnv 0 1 third = none) ∧
    ∃ env', timings exOps noEnv 0 1 failing = some env' ∧ env' 0 = some (.time 3) ∧ env' 1 = none := by
  refine ⟨fun h => ?_, ⟨third_der0, third_der1, rfl⟩, ⟨_, rfl, rfl, rfl⟩⟩
  have := (h exOps noEnv 0 1 third).2 7 17 third_der0 third_der1
  cases this

/-- The end of the interval comes ten units after the beginning, which comes a hundred after another timestamp. -/
def exTimed : List Guard := [.set 1 (two 2 (.var 0) (.lit (.dur 10))), .set 0 (two 2 (.var 2) (.lit (.dur 100)))]

theorem exOps_two {vs : List V} {v : V} (h : exOps 2 vs = some v) : ∃ t, v = .time t := by
  simp only [exOps] at h
  split at h
  all_goals first | contradiction | (cases h; exact ⟨_, rfl⟩)

theorem exTimed_timed : Timed exOps (noEnv.put 2 (.time 1000)) 0 1 exTimed := by
  refine ⟨by decide, ⟨fun _ _ _ => rfl, ?_⟩, ?_⟩
  · rintro x (rfl | rfl) <;> exact Or.inl rfl
  · rintro x (rfl | rfl)
    · refine ⟨?_, ?_⟩
      · intro e e' h1 h2
        simp [exTimed] at h1 h2
        rw [h1, h2]
      · intro e he
        simp [exTimed] at he
        subst he
        refine ⟨fun vs v h => exOps_two h, ⟨⟨trivial, trivial, trivial⟩, fun env hA _ => ?_⟩, ?_⟩
        · have : env 2 = some (.time 1000) := hA.1 2 (by decide) (by decide)
          simp [sem, sems, this, exOps]
        · intro y hy _ _ e'
          simp [two, Expr.vars, Args.vars] at hy
          subst hy
          simp [exTimed]
    · refine ⟨?_, ?_⟩
      · intro e e' h1 h2
        simp [exTimed] at h1 h2
        rw [h1, h2]
      · intro e he
        simp [exTimed] at he
        subst he
        refine ⟨fun vs v h => exOps_two h, ⟨⟨trivial, trivial, trivial⟩, fun env hA hb => ?_⟩, ?_⟩
        · have h0 := hb 0 (by simp [Args.vars, Expr.vars])
          rcases hA.2 0 (Or.inl rfl) with h | ⟨t, h⟩
          · rw [h] at h0; cases h0
          · simp [sem, sems, h, exOps]
        · intro y hy h1 _ e'
          simp [two, Expr.vars, Args.vars] at hy
          exact absurd hy h1

/-- Timings as in `C168_timings_partial`, where the end of the interval is evaluated twice. -/
theorem C168_nonvacuous :
    Timed exOps (noEnv.put 2 (.time 1000)) 0 1 exTimed ∧
    (∃ env', timings exOps (noEnv.put 2 (.time 1000)) 0 1 exTimed = some env' ∧ env' 0 = some (.time 1100) ∧ env' 1 = some (.time 1110)) ∧
    timings exOps noEnv 0 1 exTimed = none :=
  ⟨exTimed_timed, ⟨_, rfl, rfl, rfl⟩, rfl⟩

end Verif.Gev
