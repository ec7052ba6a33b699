/-!
# Machine integers (`BareMetal/L0Types/CompilerTypes.h`, `TypeCharacteristics.h`)

A C++ integer type is its width and signedness; a value of the type is an `Int` within its limits; conversion to a
type is reduction modulo `2 ^ bits` (two's complement, as on every supported compiler).
-/
namespace Verif.IntType

/-- An integer type: `int8` is `⟨8, true⟩`, `uint32` is `⟨32, false⟩`. -/
structure Ty where
  bits : Nat
  signed : Bool
deriving DecidableEq, Repr

/-- `TypeCharacteristics.h:114-116,141-144` `MinValue` / `std::numeric_limits<T>::min()`. -/
def Ty.min (t : Ty) : Int := if t.signed then -2 ^ (t.bits - 1) else 0
/-- `TypeCharacteristics.h:114-116` `MaxValue` / `std::numeric_limits<T>::max()`. -/
def Ty.max (t : Ty) : Int := if t.signed then 2 ^ (t.bits - 1) - 1 else 2 ^ t.bits - 1
/-- The values of the type. -/
def Ty.has (t : Ty) (x : Int) : Prop := t.min ≤ x ∧ x ≤ t.max
instance (t : Ty) (x : Int) : Decidable (t.has x) := inferInstanceAs (Decidable (_ ∧ _))

/-- `static_cast<T>`. -/
def Ty.cast (t : Ty) (x : Int) : Int := if t.signed then Int.bmod x (2 ^ t.bits) else x % 2 ^ t.bits

/-- `TypeCharacteristics.h:164-169` `UsableBitSize` (integer types). -/
def Ty.usable (t : Ty) : Nat := if t.signed then t.bits - 1 else t.bits
/-- `TypeCharacteristics.h:193-198` `UsableNegativeBitSize` (integer types). -/
def Ty.usableNeg (t : Ty) : Nat := if t.signed then t.bits - 1 else 0

end Verif.IntType
