/-!
# Specification of a number kept in two halves (for C64)
-/
namespace Verif.Spec.DoubleInteger

/-- The bits of the number, as a natural number: the upper half counts `2 ^ n` times. -/
def raw {n : Nat} (upper lower : BitVec n) : Nat := upper.toNat * 2 ^ n + lower.toNat

/-- The number: the sign is that of the upper half, if the type has one. -/
def value (signed : Bool) {n : Nat} (upper lower : BitVec n) : Int :=
  (if signed then upper.toInt else (upper.toNat : Int)) * 2 ^ n + lower.toNat

end Verif.Spec.DoubleInteger
