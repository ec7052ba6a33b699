import Verif.Model.IntType
/-!
# Model of `BareMetal/L1Portability/SafeMath.h` (integer types)

Values are bit patterns of the width of `T`.  Signed sums, differences and products that overflow wrap around: C++
leaves them undefined for `int32`/`int64` sums, the code relies on the wrap.
-/
namespace Verif.SafeMath
open Verif.IntType

/-- The error flags that the functions can set (`ErrorType.h`): none, `Overflow`, `Underflow`. -/
structure Err where
  overflow : Bool := false
  underflow : Bool := false
deriving DecidableEq, Repr

/-- The number a bit pattern stands for. -/
def val (sg : Bool) {w : Nat} (a : BitVec w) : Int := if sg then a.toInt else a.toNat

/-- `SafeMath.h:155-178` `SignBit`. -/
def signBit (w : Nat) : BitVec w := BitVec.twoPow w (w - 1)
/-- `SafeMath.h:180-203` `AllOnes` (signed types). -/
def allOnes (w : Nat) : BitVec w := BitVec.allOnes w

/-- `SafeMath.h:227-255` `Addition`. -/
def addition (sg : Bool) {w : Nat} (a1 a2 : BitVec w) : BitVec w × Err :=
  let sum := a1 + a2
  (sum,
    if sg then
      if ((a1 ^^^ a2) &&& signBit w) = 0 ∧ ((a1 ^^^ sum) &&& signBit w) ≠ 0 then
        if (a1 &&& signBit w) = 0 then { overflow := true } else { underflow := true }
      else {}
    else if sum.toNat < a1.toNat ∧ sum.toNat < a2.toNat then { overflow := true } else {})

/-- `SafeMath.h:258-286` `Subtraction`. -/
def subtraction (sg : Bool) {w : Nat} (a1 a2 : BitVec w) : BitVec w × Err :=
  let sum := a1 - a2
  (sum,
    if sg then
      if ((a1 ^^^ a2) &&& signBit w) ≠ 0 ∧ ((a1 ^^^ sum) &&& signBit w) ≠ 0 then
        if (a1 &&& signBit w) = 0 then { overflow := true } else { underflow := true }
      else {}
    else if a2.toNat > a1.toNat then { underflow := true } else {})

/-- `Architecture/x86_gcc/FastMathA.h:86-92` `UMulT`: the product in a type of twice the width, then its two halves. -/
def completeMultiply (sg : Bool) {w : Nat} (x1 x2 : BitVec w) : BitVec w × BitVec w :=
  let wide (x : BitVec w) : BitVec (2 * w) := if sg then x.signExtend (2 * w) else x.setWidth (2 * w)
  let ret := wide x1 * wide x2
  let mask := wide (BitVec.allOnes w)
  let high := if sg then (ret.sshiftRight w).setWidth w else (ret >>> w).setWidth w
  ((ret &&& mask).setWidth w, high)

/-- `SafeMath.h:288-313` `Multiplication`. -/
def multiplication (sg : Bool) {w : Nat} (a1 a2 : BitVec w) : BitVec w × Err :=
  let (product, ov) := completeMultiply sg a1 a2
  (product,
    if sg then
      { overflow := decide (ov.toInt > 0) || (decide (ov = 0) && decide (product.toInt < 0)),
        underflow := decide (ov.toInt < (allOnes w).toInt) ||
          (decide (ov = allOnes w) && decide (product.toInt ≥ 0)) }
    else { overflow := decide (ov ≠ 0) })

end Verif.SafeMath
