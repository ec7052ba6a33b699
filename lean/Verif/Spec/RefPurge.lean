/-!
# Specification of the objects that a purge reaches (C71)
-/
namespace Verif.Spec.RefPurge

/-- `y` is `x` or is in a container that can be reached from `x`. -/
inductive Reach (heap : List (List Nat)) (x : Nat) : Nat → Prop
  | self : Reach heap x x
  | step {y z : Nat} : Reach heap x y → z ∈ (heap[y]?).getD [] → Reach heap x z

/-- The references in all the containers. -/
def references (heap : List (List Nat)) : List Nat := heap.flatten

end Verif.Spec.RefPurge
