import Verif.Model.AnyIndex
/-!
# Where the elements of vectors and matrices are

Only the records of values are used.
-/
namespace Verif.AnyIndex.Spec
open Verif.AnyIndex

/-- The address of the element `i` of a vector at `p` of elements of `size` bytes: of texts and addresses, what the element says. -/
def vectorElement (load : Nat → Nat) (k : Kind) (p size i : Nat) : Nat :=
  if k = .string ∨ k = .pointer then load (p + 8 * i) else p + i * size

/-- The address of the row `i` of a matrix at `p` with `columns` columns: rows are one after the other, or at the addresses of a table. -/
def row (load : Nat → Nat) (static : Bool) (p size columns i : Nat) : Nat :=
  if static then p + i * (columns * size) else load (p + 8 * i)

/-- A value is the single element at an address. -/
def IsElement (v : Val) (k : Kind) (p : Nat) : Prop := v.kind = k ∧ v.dims = 0 ∧ v.ptr = p ∧ v.n0 = 1 ∧ v.n1 = 1 ∧ v.n2 = 1

/-- The value of nothing: of no type, nowhere, with no dimension, with one element in each direction. -/
def IsNothing (v : Val) : Prop := v.kind = .void ∧ v.bitAddress = 0 ∧ v.ptr = 0 ∧ v.dims = 0 ∧ v.n0 = 1 ∧ v.n1 = 1 ∧ v.n2 = 1

/-- An array that is there, with so many dimensions, of elements of so many bytes. -/
structure IsArray (v : Val) (dims size : Nat) : Prop where
  dims_eq : v.dims = dims
  there : v.ptr ≠ 0
  positive : 0 < size
  sized : match v.kind with
    | .void => False
    | .plain b => v.bitAddress = 0 ∧ b = 8 * size
    | .string => v.bitAddress = 0 ∧ size = 8
    | .pointer => v.bitAddress = 0 ∧ size = 8
    | .structured s => s = some (some size)

end Verif.AnyIndex.Spec
