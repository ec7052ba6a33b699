import Verif.Model.RefContainer
/-!
# Specification of the insertion of an object at a path (C69) and of the search from a domain (C70)

Only the type of the objects is taken from the model.
-/
namespace Verif.Spec.RefPath
open Verif.RefC (Obj)

/-- The object with another name. -/
def named : Obj → List Char → Obj
  | .leaf i _, w => .leaf i (some w)
  | .cont i _ k, w => .cont i (some w) k

/-- New containers, with the identities `fresh`, `fresh + 1`, ..., one in the other, down to the object. -/
def nest (o : Obj) : Nat → List (List Char) → List Obj
  | _, [] => []
  | _, [w] => [named o w]
  | fresh, w :: ws => [.cont fresh (some w) (nest o (fresh + 1) ws)]

/-- The tree with the object at the path; `none` when an object is already there or a name of the path is the one of an
object that is not a container. -/
def place (o : Obj) (fresh : Nat) : List (List Char) → List Obj → Option (List Obj)
  | [], _ => none
  | w :: ws, [] => some (nest o fresh (w :: ws))
  | w :: ws, .leaf i n :: kids => if n = some w then none else (place o fresh (w :: ws) kids).map (.leaf i n :: ·)
  | w :: ws, .cont i n k :: kids =>
    if n = some w then (place o fresh ws k).map fun k' => .cont i n k' :: kids
    else (place o fresh (w :: ws) kids).map (.cont i n k :: ·)

/-- The `n`-th domain (from 1) among the objects from the top to the one where the search begins, counted from the
latter. -/
def domain (isDomain : Obj → Bool) (chain : List Obj) (n : Nat) : Option Obj :=
  (chain.reverse.filter isDomain)[n - 1]?

end Verif.Spec.RefPath
