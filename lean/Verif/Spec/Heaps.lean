import Verif.Model.Heaps
/-! # Specification of the heaps -/
namespace Verif.Spec.Heaps
open Verif.Heaps (Heap)

/-- The calls that change the set of heaps. -/
inductive Op where
  | add (h : Nat)
  | addNull
  | remove (h : Nat)

/-- A set of at most sixteen heaps, in a list without order. -/
def step (s : List Nat) : Op → Bool × List Nat
  | .add h => if h ∉ s ∧ s.length < 16 then (true, h :: s) else (false, s)
  | .addNull => (false, s)
  | .remove h => if h ∈ s then (true, s.erase h) else (false, s)

def run (s : List Nat) : List Op → List Bool × List Nat
  | [] => ([], s)
  | op :: ops => ((step s op).1 :: (run (step s op).2 ops).1, (run (step s op).2 ops).2)

/-- The range of the heap contains the address. -/
def Inside (h : Heap) (address : Nat) : Prop := h.first ≤ address ∧ address ≤ h.last

/-- The range of `h` is not larger than that of `g`. -/
def NotLarger (h g : Heap) : Prop := h.last - h.first ≤ g.last - g.first

end Verif.Spec.Heaps
