/-!
# What a shift is

In numbers: a right shift divides by a power of two, rounding down; a left shift multiplies, keeping the bits that fit.
-/
namespace Verif.Shift.Spec

/-- The bits, read as a number without sign, are divided. -/
def IsLogicalRight {w : Nat} (x : BitVec w) (s : Nat) (r : BitVec w) : Prop := r.toNat = x.toNat / 2 ^ s

/-- The bits are multiplied, modulo the size of the type. -/
def IsLeft {w : Nat} (x : BitVec w) (s : Nat) (r : BitVec w) : Prop := r.toNat = x.toNat * 2 ^ s % 2 ^ w

/-- The number with sign is divided, rounding down. -/
def IsSignedRight {w : Nat} (x : BitVec w) (s : Nat) (r : BitVec w) : Prop := r.toInt = x.toInt / 2 ^ s

/-- The number made of two halves. -/
def double {w : Nat} (upper lower : BitVec w) : Nat := upper.toNat * 2 ^ w + lower.toNat

end Verif.Shift.Spec
