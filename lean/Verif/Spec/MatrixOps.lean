import Verif.Model.MatrixOps
import Mathlib.LinearAlgebra.Matrix.Adjugate
/-!
# Specification of the matrices (C72)

Only the record of a matrix is taken from the model.  The operations are those of Mathlib: sums over ranges,
`Matrix.det`, the product and the unit of square matrices.
-/
namespace Verif.Spec.MatrixOps
open Verif.MatrixOps (Mat Storage Mem)

/-- Where the element in row `i` and column `j` is: the rows one after the other, or in the row at its pointer. -/
def place (a : Mat) (i j : Nat) : Nat :=
  match a.store with
  | .flat base => base + i * a.numCols + j
  | .rows ptr => ptr i + j

/-- An array of all the elements has at most `2^32` of them. -/
def Fits (a : Mat) : Prop :=
  match a.store with
  | .flat _ => a.numRows * a.numCols ≤ 2 ^ 32
  | .rows _ => True

/-- Different elements are in different cells. -/
def Distinct (a : Mat) : Prop :=
  ∀ i j i' j', i < a.numRows → j < a.numCols → i' < a.numRows → j' < a.numCols → place a i j = place a i' j' → i = i' ∧ j = j'

/-- No cell is shared. -/
def Apart (a b : Mat) : Prop :=
  ∀ i j i' j', i < a.numRows → j < a.numCols → i' < b.numRows → j' < b.numCols → place a i j ≠ place b i' j'

/-- All the cells that are not of the matrix are unchanged. -/
def Frame {K} (a : Mat) (m m' : Mem K) : Prop :=
  ∀ c, (∀ i j, i < a.numRows → j < a.numCols → c ≠ place a i j) → m' c = m c

/-- The content of a square matrix with `n` rows. -/
def square {K} (m : Mem K) (a : Mat) (n : Nat) : Matrix (Fin n) (Fin n) K := Matrix.of fun i j => m (place a i j)

end Verif.Spec.MatrixOps
