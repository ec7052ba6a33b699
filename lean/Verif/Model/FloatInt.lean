import Verif.Model.FloatNum
import Verif.Model.BitConvert
/-!
# Conversions between floating point numbers, integers and booleans

`Source/Core/BareMetal/L4Configuration/FloatToInteger.cpp`, `IntegerToFloat.cpp` and the parts of `TypeConversion.cpp`
that call them.
-/
namespace Verif.FloatNum
open Verif.BitConvert (Byte Mem leNat leBytes readBytes writeBytes Field)

/-- `static_cast<IntegerType>(x)`: towards zero; undefined when the result does not fit. -/
def truncInt (f : Fmt) (min max : Int) : Flt → Option Int
  | .fin n =>
    let t := Int.tdiv n (2 ^ f.K)
    if min ≤ t ∧ t ≤ max then some t else none
  | _ => none

/-- The number 0.5. -/
def half (f : Fmt) (negative : Bool) : Flt := .fin (if negative then -2 ^ (f.K - 1) else 2 ^ (f.K - 1))

/-- `FloatToInteger.cpp:57-110` `FloatToInteger` to an integer type of `bits` bits.  It always answers `true`. -/
def floatToInteger (f : Fmt) (bits : Nat) (isDestSigned : Bool) (floatNumber : Flt) : Option Int :=
  let isSourcePositive := gt floatNumber (.fin 0)
  if isDestSigned || isSourcePositive then
    let max : Int := if isDestSigned then 2 ^ (bits - 1) - 1 else 2 ^ bits - 1
    let min : Int := if isDestSigned then -2 ^ (bits - 1) else 0
    if ge floatNumber (ofInt f max) then some max
    else if le floatNumber (ofInt f min) then some min
    else
      match truncInt f min max floatNumber with
      | none => none
      | some integerNumber =>
        if ge (sub f floatNumber (ofInt f integerNumber)) (half f false) then
          some (if integerNumber < max then integerNumber + 1 else integerNumber)
        else if le (sub f floatNumber (ofInt f integerNumber)) (half f true) then
          some (if integerNumber > min then integerNumber - 1 else integerNumber)
        else some integerNumber
  else some 0

/-- The size in bytes of the integer type that `FloatToIntegerGeneric` and `IntegerToFloatGeneric` choose
(`FloatToInteger.cpp:130-199`, `IntegerToFloat.cpp:94-156`); none above 64 bits. -/
def chosenSize (bitSize : Nat) : Option Nat :=
  if bitSize ≤ 8 then some 1
  else if bitSize ≤ 16 then some 2
  else if bitSize ≤ 32 then some 4
  else if bitSize ≤ 64 then some 8
  else none

/-- `AnyType.h:1444-1446` `GetBitSize`: the bits of the type and the bit address. -/
def bitSize (d : Field) : Nat := d.bits + d.shift

/-- The bytes of an integer of `k` bytes. -/
def intBytes (k : Nat) (i : Int) : List Byte := leBytes k (i % 2 ^ (8 * k)).toNat

/-- The integer of `k` bytes. -/
def bytesInt (bs : List Byte) (signed : Bool) : Int :=
  let n := leNat bs
  if signed ∧ 2 ^ (8 * bs.length - 1) ≤ n then (n : Int) - 2 ^ (8 * bs.length) else n

/-- `FloatToInteger.cpp:122-224` `FloatToIntegerGeneric` as `FloatToType` calls it (`TypeConversion.cpp:328-335`): the
integer is written at the pointer of the destination with the size that was chosen. -/
def floatToField (f : Fmt) (mem : Mem) (d : Field) (x : Flt) : Option (Bool × Mem) :=
  match chosenSize (bitSize d) with
  | none => some (false, mem)
  | some k =>
    match floatToInteger f (8 * k) d.signed x with
    | none => none
    | some i => (writeBytes mem d.pointer (intBytes k i)).map (true, ·)

/-- `IntegerToFloat.cpp:51-71` `IntegerToFloat`: the result and the number that is stored. -/
def integerToFloat (f : Fmt) (source : Int) : Bool × Flt :=
  let test := ofInt f source
  if isNaN test || isInf f test then (false, .fin 0) else (true, test)

/-- `IntegerToFloat.cpp:85-179` `IntegerToFloatGeneric` as `IntegerToType` calls it (`TypeConversion.cpp:253-264`);
above 64 bits it answers `false` and stores nothing (`none` is the absence of a stored number). -/
def fieldToFloat (f : Fmt) (mem : Mem) (s : Field) : Option (Bool × Option Flt) :=
  match chosenSize (bitSize s) with
  | none => some (false, none)
  | some k =>
    match readBytes mem s.pointer k k with
    | none => none
    | some bs =>
      let (ret, x) := integerToFloat f (bytesInt bs s.signed)
      some (ret, some x)

/-- `static_cast<FloatType2>(x)` of a number of the format `f1` to the format `f2`. -/
def castFloat (f1 f2 : Fmt) : Flt → Flt
  | .nan => .nan
  | .inf a => .inf a
  | .fin n => roundQ f2 (n < 0) (n.natAbs * 2 ^ f2.K) (2 ^ f1.K)

/-- `TypeConversion.cpp:67-86` `MinMaxFloat` for `float32`: the greatest number of the format (`0x7f7fffff`). -/
def maxFloat (f : Fmt) : Int := (2 ^ f.p - 1) * 2 ^ (f.top - f.p)

/-- `TypeConversion.cpp:99-127` `FloatToFloat`; `narrow` is `sizeof(FloatType2) < sizeof(FloatType1)`. -/
def floatToFloat (f1 f2 : Fmt) (narrow : Bool) (source : Flt) : Bool × Flt :=
  if isNaN source || isInf f1 source then (false, .fin 0)
  else
    let test := castFloat f1 f2 source
    if isNaN test || isInf f2 test then
      if narrow then (true, .fin (if gt source (.fin 0) then maxFloat f2 else -maxFloat f2))
      else (false, .fin 0)
    else (true, test)

/-- `TypeConversion.cpp:191-213` An integer of `bits` bits to a boolean: only the types of 8, 16, 32 and 64 bits are
compared; the destination keeps its value otherwise. -/
def integerToBool (bits : Nat) (old : Bool) (source : Nat) : Bool × Bool :=
  if bits = 8 ∨ bits = 16 ∨ bits = 32 ∨ bits = 64 then (true, source == 1) else (true, old)

/-- `TypeConversion.cpp:420-433` A boolean to an integer: `Set` of the bytes of the bit size, and then the first. -/
def boolToField (mem : Mem) (d : Field) (b : Bool) : Option (Bool × Mem) :=
  match writeBytes mem d.pointer (List.replicate (bitSize d / 8) 0) with
  | none => none
  | some mem => (writeBytes mem d.pointer [if b then 1 else 0]).map (true, ·)

/-- `TypeConversion.cpp:348-351,434-437` A float to a boolean stores `false` and answers `false`; a boolean to a float
answers `false` and stores nothing. -/
def floatToBool (_ : Flt) : Bool × Bool := (false, false)

end Verif.FloatNum
