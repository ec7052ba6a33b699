import Verif.Model.MemoryArea
/-!
# What an area of memory is: the bytes put in it, one after the other

A byte that was only asked for is not known (`none`).  Only the operations (`Op`) of the model are used.
-/
namespace Verif.MemoryArea.Spec
open Verif.MemoryArea

abbrev Content := List (Option UInt8)

/-- One operation on the content: what it answers, and the content after it. -/
def step : Op → Content → Option Nat × Content
  | .init bytes, [] => (some 0, bytes.map some)
  | .init _, c => (none, c)
  | .add h n, c => if h.gives then (some c.length, c ++ List.replicate n none) else (none, c)
  | .addFrom h src, c => if h.gives then (some c.length, c ++ src.map some) else (none, c)
  | .free, _ => (none, [])

def run : List Op → Content → List (Option Nat) × Content
  | [], c => ([], c)
  | op :: ops, c => ((step op c).1 :: (run ops (step op c).2).1, (run ops (step op c).2).2)

/-- Every operation is given some bytes, the content stays below 4 GB, and memory is refused only while the area is empty. -/
def Plain : List Op → Content → Prop
  | [], _ => True
  | op :: ops, c =>
    (match op with
     | .init bytes => bytes ≠ [] ∧ bytes.length < 2 ^ 32
     | .add h n => 0 < n ∧ c.length + n < 2 ^ 32 ∧ (h.gives = false → c = [])
     | .addFrom h src => src ≠ [] ∧ c.length + src.length < 2 ^ 32 ∧ (h.gives = false → c = [])
     | .free => True) ∧ Plain ops (step op c).2

/-- The bytes `m` are the content `c`: as many, and the same where known. -/
def Holds (m : List UInt8) (c : Content) : Prop :=
  m.length = c.length ∧ ∀ (i : Nat) x, c[i]? = some (some x) → m[i]? = some x

end Verif.MemoryArea.Spec
