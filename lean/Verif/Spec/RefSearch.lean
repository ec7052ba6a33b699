import Verif.Model.RefContainer
/-!
# Specification of a search (C61)

Only the type of the objects (`Obj`) is taken from the model.
-/
namespace Verif.Spec.RefSearch
open Verif.RefC

/-- A place in a tree: the objects from the top down to the object at the place, and the tree without that object. -/
structure Place (α : Type) where
  chain : List Obj
  without : α

mutual
/-- The places in an object, itself first; below it only if `deep`.  `backwards`: the last child first. -/
def placesIn (deep backwards : Bool) : Obj → List (Place (Option Obj))
  | .leaf i n => [⟨[.leaf i n], none⟩]
  | .cont i n ks => ⟨[.cont i n ks], none⟩ ::
      (if deep then (places deep backwards ks).map fun v => ⟨.cont i n ks :: v.chain, some (.cont i n v.without)⟩ else [])

/-- The places in a list of objects, in the order of the list or backwards. -/
def places (deep backwards : Bool) : List Obj → List (Place (List Obj))
  | [] => []
  | o :: os =>
    if backwards then
      ((places deep backwards os).map fun v => ⟨v.chain, o :: v.without⟩) ++ ((placesIn deep backwards o).map fun v => ⟨v.chain, v.without.toList ++ os⟩)
    else
      ((placesIn deep backwards o).map fun v => ⟨v.chain, v.without.toList ++ os⟩) ++ ((places deep backwards os).map fun v => ⟨v.chain, o :: v.without⟩)
end

/-- The object at a place is wanted. -/
def Wanted (want : Obj → Bool) {α : Type} (v : Place α) : Bool :=
  match v.chain.getLast? with
  | some o => want o
  | none => false

/-- The places of the wanted objects. -/
def found (want : Obj → Bool) (deep backwards : Bool) (kids : List Obj) : List (Place (List Obj)) :=
  (places deep backwards kids).filter (Wanted want)

/-- An object with this name. -/
def hasName (w : List Char) (o : Obj) : Bool :=
  match o with
  | .leaf _ n => n == some w
  | .cont _ n _ => n == some w

/-- This very object. -/
def isObject (i : Nat) (o : Obj) : Bool :=
  match o with
  | .leaf j _ => i == j
  | .cont j _ _ => i == j

end Verif.Spec.RefSearch
