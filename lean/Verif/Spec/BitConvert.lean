/-!
# Specification of the fields of bits in a memory (for C65)
-/
namespace Verif.Spec.BitConvert

/-- Bit `i` of a memory: bit `i % 8` of the byte `i / 8` (none after the end). -/
def bit (mem : List (BitVec 8)) (i : Nat) : Bool := (mem.getD (i / 8) 0).getLsbD (i % 8)

/-- The `n` bits from the bit `a` on, as a natural number: the first is the least significant. -/
def bits (mem : List (BitVec 8)) (a : Nat) : (n : Nat) → Nat
  | 0 => 0
  | n + 1 => bits mem a n + if bit mem (a + n) then 2 ^ n else 0

/-- The value of the field of `n` bits at bit `a`: two's complement if it is signed. -/
def value (mem : List (BitVec 8)) (a n : Nat) (signed : Bool) : Int :=
  if signed && bit mem (a + (n - 1)) then (bits mem a n : Int) - 2 ^ n else bits mem a n

/-- The least and the greatest value of a field of `n` bits. -/
def least (n : Nat) (signed : Bool) : Int := if signed then -2 ^ (n - 1) else 0
def greatest (n : Nat) (signed : Bool) : Int := if signed then 2 ^ (n - 1) - 1 else 2 ^ n - 1

/-- The value of the field that is the nearest to `x`. -/
def clamp (n : Nat) (signed : Bool) (x : Int) : Int :=
  if x < least n signed then least n signed else if greatest n signed < x then greatest n signed else x

end Verif.Spec.BitConvert
