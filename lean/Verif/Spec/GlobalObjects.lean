/-!
# The order in which objects are destroyed
-/
namespace Verif.GlobalObjects.Spec

/-- Ascending order of destruction: first the objects of order 0, then those of order 1, and so on below `n`; those of the same order as they were added. -/
def ascending (n : Nat) (adds : List (Nat × Nat)) : List Nat :=
  (List.range n).flatMap fun k => (adds.filter fun a => a.2 = k).map (·.1)

end Verif.GlobalObjects.Spec
