import Verif.Spec.ConfigDb

/-! ## Specification: a copy of a tree into another -/
namespace Verif.Spec.ConfigDb
open Verif.ConfigDb (Name Op Out)

variable {V : Type}

/-- The tree `d` after the children `L` of the current node of `s`, with all that is below them, have been put below the current
node of `d`: what is in `L` comes from `s`, everything else is as before; the new names come after those that were there. -/
def overlay (d s : Db V) (L : List Name) : Db V :=
  { item := fun q =>
      if d.cur.isPrefixOf q then
        match q.drop d.cur.length with
        | [] => some (.node (children d.item d.cur ++ L.filter fun n => n ∉ children d.item d.cur))
        | n :: r => if n ∈ L then s.item (s.cur ++ n :: r) else d.item q
      else d.item q,
    cur := d.cur }

/-- A node of `s`, child of its current node, whose name is already taken in `d`. -/
def Clash (d s : Db V) (n : Name) : Prop :=
  isNode (s.item (s.cur ++ [n])) = true ∧ d.item (d.cur ++ [n]) ≠ none

end Verif.Spec.ConfigDb
