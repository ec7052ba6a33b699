import Verif.Spec.RefContainer
import Verif.Model.WebTree
/-! # Specification of the tree of a web server -/
namespace Verif.Spec.Web
open Verif.RefC (Obj)
open Verif.Spec.RefC (At Below)
open Verif.Web (Kind)

/-- The object at the longest part of the path that leads to one, and the words that are left. -/
def Longest (root : List Obj) (ws : List (List Char)) (o : Obj) (rest : List (List Char)) : Prop :=
  ∃ pre, ws = pre ++ rest ∧ At root pre o ∧
    ∀ pre' rest' o', ws = pre' ++ rest' → At root pre' o' → pre'.length ≤ pre.length

/-- No part of the path leads to an object. -/
def Nowhere (root : List Obj) (ws : List (List Char)) : Prop :=
  ∀ pre rest o, ws = pre ++ rest → ¬ At root pre o

/-- The objects that a browser can show: those below its root, those below the roots of the browsers it shows, and so
on. -/
inductive Shown (kind : Nat → Kind) : List Obj → Obj → Prop
  | here {root kids o} : Below root kids → o ∈ kids → Shown kind root o
  | through {root b realm root' o} : Shown kind root b → kind b.id = .browser realm root' → Shown kind root' o →
      Shown kind root o
  | inside {root b kids o} : Shown kind root b → b.kids? = some kids → o ∈ kids → Shown kind root o

/-- The names say where an object is: all objects have one, the children of a container have different names and the
names of the children of the root are not used below. -/
structure Clear (root : List Obj) : Prop where
  named : ∀ kids, Below root kids → ∀ o ∈ kids, o.name.isSome
  unique : ∀ kids, Below root kids → Verif.Spec.RefC.UniqueNames kids
  top : ∀ kids, Below root kids → ∀ c ∈ kids, ∀ d ∈ root, c.name = d.name → kids = root

end Verif.Spec.Web
