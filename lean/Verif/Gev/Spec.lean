import Verif.Gev.Model
/-!
# What guards say (C167, C168)
-/
namespace Verif.Gev

mutual
/-- The value of an expression. -/
def sem (O : Ops) (env : Env) : Expr → Option V
  | .lit v => some v
  | .res v => some v
  | .var x => env x
  | .op f as => (sems O env as).bind (O f)

def sems (O : Ops) (env : Env) : Args → Option (List V)
  | .nil => some []
  | .cons e as => (sem O env e).bind fun v => (sems O env as).map (v :: ·)
end

/-- The guard holds: the variable has the value of the expression; the condition has a value other than
false. -/
def Holds (O : Ops) (env : Env) : Guard → Prop
  | .set x e => ∃ v, sem O env e = some v ∧ env x = some v
  | .test e => ∃ v, sem O env e = some v ∧ v ≠ .bool false

/-- Guards evaluated one after the other, from some bindings to others: variables are given values, once. -/
inductive Comp (O : Ops) : Env → List Guard → Env → Prop
  | nil {env} : Comp O env [] env
  | set {env x e v gs env'} : sem O env e = some v → (env x = none ∨ env x = some v) → Comp O (env.put x v) gs env' → Comp O env (.set x e :: gs) env'
  | test {env e v gs env'} : sem O env e = some v → v ≠ .bool false → Comp O env gs env' → Comp O env (.test e :: gs) env'

/-- C167: when the guards are evaluated with success, they all hold of the resulting bindings, and what was bound
is as before; they are evaluated with success if there is an order in which they can be. -/
def C167_full : Prop :=
  ∀ (O : Ops) (env : Env) (gs : List Guard),
    (∀ env', run O env gs = some env' → (∀ g ∈ gs, Holds O env' g) ∧ ∀ x v, env x = some v → env' x = some v) ∧
    ∀ gs' env', gs'.Perm gs → Comp O env gs' env' → run O env gs = some env'

/-- The value of a variable that is bound, or that follows from guards. -/
inductive Der (O : Ops) (env : Env) (gs : List Guard) : Nat → V → Prop
  | given {x v} : env x = some v → Der O env gs x v
  | guard {x e v} (env1 : Env) : .set x e ∈ gs → env x = none → (∀ y w, env1 y = some w → Der O env gs y w) → sem O env1 e = some v → Der O env gs x v

/-- C168: the timings of the consequence are computed from the guards if and only if they follow from these; then they
are bound to what follows. -/
def C168_full : Prop :=
  ∀ (O : Ops) (env : Env) (a b : Nat) (gs : List Guard),
    (∀ env', timings O env a b gs = some env' →
      ∃ s t, env' a = some (.time s) ∧ env' b = some (.time t) ∧ Der O env gs a (.time s) ∧ Der O env gs b (.time t)) ∧
    ∀ s t, Der O env gs a (.time s) → Der O env gs b (.time t) → (timings O env a b gs).isSome = true

end Verif.Gev
