import Verif.Model.ConfigExpr
/-! ## Specification: the values of expressions in a configuration -/
namespace Verif.Spec.ConfigExpr
open Verif.ConfigExpr (Name Var Leaf Math Expr)

variable {V Ty : Type}

/-- The leaves of a configuration, by the path of their node and their name. -/
abbrev Leaves (V : Type) := List Name → Name → Option (Leaf V)

/-- The values of the variables of an expression: all of them are values in the configuration. -/
def values (c : Leaves V) : List Var → Option (List (Var × V))
  | [] => some []
  | v :: vs =>
    match c v.path v.name, values c vs with
    | some (.value x), some l => some ((v, x) :: l)
    | _, _ => none

/-- The configuration after an expression has been replaced by its value. -/
def replaced (m : Math V Ty) (e : Expr Ty) (c : Leaves V) : Option (Leaves V) :=
  match c e.path e.leaf with
  | some (.text t) =>
    ((m.vars t).bind (values c)).bind fun vals =>
      if m.numeric e.ty then (m.run t e.ty vals).map fun x => fun p n => if p = e.path ∧ n = e.leaf then some (.value x) else c p n
      else none
  | _ => none

/-- The expressions are replaced in the order in which they are written. -/
def replacedAll (m : Math V Ty) : List (Expr Ty) → Leaves V → Option (Leaves V)
  | [], c => some c
  | e :: es, c => (replaced m e c).bind (replacedAll m es)

/-- The variables of the root come before the others. -/
def rootFirst : List Var → Prop
  | [] => True
  | v :: vs => (v.path ≠ [] → ∀ u ∈ vs, u.path ≠ []) ∧ rootFirst vs

/-- There are leaves only in nodes, and the nodes of all variables that are values exist. -/
def Wf (nodes : List (List Name)) (c : Leaves V) : Prop := ∀ p n l, c p n = some l → p = [] ∨ p ∈ nodes

end Verif.Spec.ConfigExpr
