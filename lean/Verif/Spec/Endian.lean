import Verif.Model.Endian
/-!
# Specification: byte orders

`Mem`, `Arch`, `Ty` are data.
-/
namespace Verif.Spec.Endian
open Verif.Endian (Arch Ty Mem)

/-- The bytes of a variable, in the order of their addresses. -/
def bytes (m : Mem) (a n : Nat) : List Nat := (List.range n).map fun i => m (a + i)

/-- The number that some bytes are: least first, or most first. -/
def little (bs : List Nat) : Nat := bs.foldr (fun b acc => b + 256 * acc) 0
def big (bs : List Nat) : Nat := bs.foldl (fun acc b => acc * 256 + b) 0

/-- The number that some bytes are for the processor. -/
def native : Arch → List Nat → Nat
  | .ppc => big
  | _ => little

/-- The size of a type. -/
def width : Ty → Nat
  | .u16 | .i16 => 2
  | .f32 | .u32 | .i32 => 4
  | .f64 | .u64 | .i64 => 8

/-- Two memories are the same outside of some bytes. -/
def SameBut (m m' : Mem) (a n : Nat) : Prop := ∀ x, x < a ∨ a + n ≤ x → m' x = m x

end Verif.Spec.Endian
