import Verif.Model.IntType
/-!
# Model of `BareMetal/L0Types/BitRange.h`, `BitBoolean.h`, `FractionalInteger.h` and of the saturating conversions of
`TypeCharacteristics.h` (integer types)

Shifts of signed values are arithmetic and do not trap, as on every supported compiler (C++ leaves the left shift of
a negative value undefined).
-/
namespace Verif.BitRange
open Verif.IntType

/-- `x >> k` on a value of any integer type. -/
def shr (x : Int) (k : Nat) : Int := x / 2 ^ k

/-- `TypeCharacteristics.h:268-315` `SaturateInteger<outputType, inputType, bitSize>`. -/
def saturateInteger (out inp : Ty) (bitSize : Nat) (input : Int) : Int :=
  let isSigned := out.signed
  let minValue := if isSigned then out.cast (shr out.min (out.bits - bitSize)) else out.cast 0
  let maxValue := out.cast (shr out.max (out.bits - bitSize))
  let value := out.cast input
  if input ≥ inp.cast 0 then
    if inp.usable > out.usable then
      if input > inp.cast maxValue then maxValue else value
    else
      if out.cast input > maxValue then maxValue else value
  else
    if !isSigned then out.cast 0
    else if inp.usable > out.usable then
      if input < inp.cast minValue then minValue else value
    else
      if out.cast input < minValue then minValue else value

/-- `TypeCharacteristics.h:227-254` `SafeNumber2Number` between integer types: the value stored and the result. -/
def safeNumber2Number (inp out : Ty) (src : Int) : Int × Bool :=
  let (dest, ret) :=
    if inp.usable > out.usable ∧ src > inp.cast out.max then (out.max, false) else (0, true)
  let (dest, ret) :=
    if inp.usableNeg > out.usableNeg ∧ src < inp.cast out.min then (out.min, false) else (dest, ret)
  if ret then (out.cast src, ret) else (dest, ret)

variable {w : Nat}

/-- `BitRange.h:107` `mask`: computed in `uint64` and converted back. -/
def mask (sg : Bool) (w numberOfBits bitOffset : Nat) : BitVec w :=
  let ones : BitVec w := BitVec.allOnes w
  let shifted := if sg then ones.sshiftRight (w - numberOfBits) else ones >>> (w - numberOfBits)
  let wide : BitVec 64 := if sg then shifted.signExtend 64 else shifted.setWidth 64
  (wide <<< bitOffset).setWidth w

/-- `BitRange.h:112` `notMask`. -/
def notMask (sg : Bool) (w n off : Nat) : BitVec w := ~~~(mask sg w n off)

/-- `BitRange.h:125-142` assignment: the new content of the storage unit. -/
def assign (sg : Bool) (n off : Nat) (inp : Ty) (value : BitVec w) (input : Int) : BitVec w :=
  let temporaryValue : BitVec w := BitVec.ofInt w (saturateInteger ⟨w, sg⟩ inp n input)
  let temporaryValue := temporaryValue <<< off
  let temporaryValue := temporaryValue &&& mask sg w n off
  let value := value &&& notMask sg w n off
  value ||| temporaryValue

/-- `BitRange.h:144-157` conversion to the base type. -/
def read (sg : Bool) (n off : Nat) (value : BitVec w) : BitVec w :=
  let temporaryValue := value &&& mask sg w n off
  let temporaryValue := temporaryValue <<< (w - off - n)
  if sg then temporaryValue.sshiftRight (w - n) else temporaryValue >>> (w - n)

/-- `BitBoolean.h:99-121` assignment. -/
def setFlag (off : Nat) (value : BitVec w) (flag : Bool) : BitVec w :=
  let mask := (1 : BitVec w) <<< off
  if flag then value ||| mask else value &&& ~~~mask

/-- `BitBoolean.h:124-126` conversion to `bool`. -/
def getFlag (off : Nat) (value : BitVec w) : Bool := (value &&& ((1 : BitVec w) <<< off)) != 0

end Verif.BitRange
