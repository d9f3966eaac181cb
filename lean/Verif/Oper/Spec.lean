import Verif.Oper.Model
/-!
# What is wanted of operators (C173)
-/
namespace Verif.Oper

/-- The functions of a name: that of the executive, then that of the library. -/
def wanted (L : Lib) (n : String) : List Fn :=
  (if n ∈ stdNames then [.std n] else []) ++ if n ∈ L.ops then [.usr n] else []

/-- C173: when the executive is initialised, with any source and library, an operator of the source calls the functions of its
name and no others, and there is one. -/
def C173_full : Prop :=
  ∀ (ds : List Decl) (L : Lib) (m : Nat) (t : Tab), inits ds L (m + 1) (fun _ => {}) = some t →
    ∀ n k, lookup (table 0 0 ds) n = some (.op k) → wanted L n ≠ [] ∧ (t k).calls = wanted L n

/-- The operators of the source, in order. -/
def opNames : List Decl → List String
  | [] => []
  | .op n :: ds => n :: opNames ds
  | _ :: ds => opNames ds

/-- The source begins with the standard operators, in the order of the executive, and no name is declared twice; the library
has operators that are declared, each once. -/
structure Proper (ds : List Decl) (L : Lib) : Prop where
  std : stdNames <+: opNames ds
  names : (ds.map Decl.name).Nodup
  decl : ∀ n ∈ L.ops, n ∈ opNames ds
  fns : ∀ n ∈ L.ops, n ∈ L.fns
  ops : L.ops.Nodup

end Verif.Oper
