import Verif.Model.ArrayConvert
/-!
# Specification of the conversion of arrays (C79)

Only the records are taken from the model.
-/
namespace Verif.Spec.ArrayConvert
open Verif.ArrayConvert (Mem Any Elem)

/-- The bytes of an element. -/
def chunk (m : Mem) (a w : Nat) : List UInt8 := (List.range w).map fun i => m (a + i)

/-- The address is in none of the elements of the destination. -/
def Outside (w : Nat) (places : List (Nat × Nat)) (x : Nat) : Prop := ∀ p, p ∈ places → ¬ (p.1 ≤ x ∧ x < p.1 + w)

/-- Each element of the destination (with `w` bytes) is the converted element of the source, the answer tells whether all could be converted, and
nothing else has changed. -/
def Elementwise (e : Elem S) (w : Nat) (places : List (Nat × Nat)) (m : Mem) (r : Bool × Mem) : Prop :=
  (r.1 = true ↔ ∀ p, p ∈ places → (e.conv (e.read m p.2) (chunk m p.1 w)).1 = true) ∧
  (∀ p, p ∈ places → chunk r.2 p.1 w = (e.conv (e.read m p.2) (chunk m p.1 w)).2) ∧
  ∀ x, Outside w places x → r.2 x = m x

/-- The elements of the destination are apart from each other and from the source. -/
def Apart (e : Elem S) (w : Nat) (places : List (Nat × Nat)) (m : Mem) : Prop :=
  places.Pairwise (fun p q => p.1 + w ≤ q.1 ∨ q.1 + w ≤ p.1) ∧
  ∀ p, p ∈ places → ∀ m' : Mem, (∀ x, Outside w places x → m' x = m x) → e.read m' p.2 = e.read m p.2

/-- A conversion gives as many bytes as there were. -/
def Keeps (e : Elem S) : Prop := ∀ s old, (e.conv s old).2.length = old.length

/-- The numbers of elements, a text counted as one element. -/
def outline (a : Any) : List Nat :=
  if a.char then (if a.dims = 2 then [a.n1] else if a.dims = 3 then [a.n0, a.n1] else [])
  else if a.dims = 1 then [a.n0] else if a.dims = 2 then [a.n0, a.n1] else if a.dims = 3 then [a.n0, a.n1, a.n2] else []

/-- Where the element `i` of a vector is: one after the other; the texts of an array of pointers, where they point to. -/
def vectorPlace (a : Any) (i : Nat) : Nat :=
  if a.char then (if a.static then a.addr + i * (a.size * a.n0) else a.rows i) else a.addr + i * a.size

/-- Where the element of a row and a column of a matrix is. -/
def matrixPlace (a : Any) (r c : Nat) : Nat :=
  if a.static then a.addr + (r * a.n0 + c) * a.size else a.rows r + c * a.size

/-- The pairs of places of two vectors. -/
def vectorPlaces (dst src : Any) (n : Nat) : List (Nat × Nat) := (List.range n).map fun i => (vectorPlace dst i, vectorPlace src i)

/-- The pairs of places of two matrices. -/
def matrixPlaces (dst src : Any) : List (Nat × Nat) :=
  (List.range dst.n1).flatMap fun r => (List.range dst.n0).map fun c => (matrixPlace dst r c, matrixPlace src r c)

/-- The bytes of an element of the destination. -/
def width (a : Any) : Nat := if a.char then a.size * a.n0 else a.size

end Verif.Spec.ArrayConvert
