/-!
# Model of the integer/text conversions

* `BareMetal/L4Configuration/StringToInteger.cpp` (text to integer)
* `BareMetal/L3Streams/IOBufferIntegerPrint.cpp` (integer to text)

A C string is the list of its bytes before the terminating zero; reading past the end of the list reads
the terminator.  An output stream is the list of the characters put on it; `PutC` always succeeds
(simplification: unlimited stream).
-/
namespace Verif.IntText

/-- The C++ integer type `T` of the templates: width in bits and signedness. -/
structure IType where
  w : Nat
  signed : Bool
deriving DecidableEq, Repr

/-- `static_cast<T>(x)`: two's complement conversion to the type. -/
def IType.cast (t : IType) (x : Int) : Int :=
  if t.signed then x.bmod (2 ^ t.w) else x % (2 ^ t.w : Int)

/-- `StringToInteger.cpp:99,104-105` `maxmax`: all ones, shifted right logically by one when signed. -/
def IType.maxmax (t : IType) : Int :=
  if t.signed then (2 ^ (t.w - 1) : Int) - 1 else (2 ^ t.w : Int) - 1

/-- `StringToInteger.cpp:118-119` `newDigit`: an `int8` difference of `int8` values. -/
def newDigitOf (c : UInt8) (base : Int) : Int := (((c.toNat : Int).bmod 256) - base).bmod 256

/-- State of the decimal loop: `ret`, `number`, `isMin`. -/
structure DecState where
  ret : Bool
  number : Int
  isMin : Bool

/-- `StringToInteger.cpp:115-161` the digit loop.  `fuel` is `1000 - i` (the loop stops at `i == 1000`). -/
def decLoop (t : IType) (isNegative : Bool) (max maxLastDigit : Int) :
    (fuel : Nat) → List UInt8 → DecState → DecState
  | 0, _, s => s
  | _ + 1, [], s => s                                    -- digit == '\0', lines 154-160
  | fuel + 1, c :: cs, s =>
    let newDigit := newDigitOf c 48
    if 0 ≤ newDigit ∧ newDigit ≤ 9 then
      if s.number > max then { s with ret := false }     -- lines 125-129, canReturn
      else if s.number = max then
        if newDigit ≤ maxLastDigit then                  -- lines 131-141
          let isMin := (newDigit = maxLastDigit ∧ isNegative)
          let d := if isMin then newDigit - 1 else newDigit
          let number := t.cast (t.cast (s.number * 10) + d)
          -- lines 148-152 run as well when the updated number is still below max
          let number := if number < max then t.cast (t.cast (number * 10) + d) else number
          decLoop t isNegative max maxLastDigit fuel cs
            { s with number := number, isMin := s.isMin || decide isMin }
        else { s with ret := false }                     -- lines 142-146, canReturn
      else                                               -- lines 148-152
        decLoop t isNegative max maxLastDigit fuel cs
          { s with number := t.cast (t.cast (s.number * 10) + newDigit) }
    else { s with ret := false }                         -- lines 154-160, a non-zero foreign character

/-- `StringToInteger.cpp:67-181` `StringToIntegerDecimalNotation`, returning `(ret, number)`. -/
def decimal (t : IType) (input : List UInt8) : Bool × Int :=
  let isNegative : Bool := input.head? = some 45         -- '-'
  let i := if isNegative then 1 else if input.head? = some 43 then 1 else 0  -- '+'
  let maxmax := t.maxmax
  let maxLastDigit := if t.signed && isNegative then maxmax % 10 + 1 else maxmax % 10
  let s := decLoop t isNegative (maxmax / 10) maxLastDigit (1000 - i) (input.drop i)
    { ret := true, number := 0, isMin := false }
  if isNegative then
    if t.signed then
      let n := t.cast (-s.number)
      (s.ret, if s.isMin then t.cast (n - 1) else n)
    else (false, 0)
  else (s.ret, s.number)

/-- `StringToInteger.cpp:214-233` the hexadecimal digit of a character: `0`-`9`, then `A`-`F`, then `a`-`f`. -/
@[irreducible] def hexDigitOf (c : UInt8) : Option Int :=
  let d0 := newDigitOf c 48
  let d1 := ((10 + (((c.toNat : Int).bmod 256) - 65)).bmod 256)
  let d2 := ((10 + (((c.toNat : Int).bmod 256) - 97)).bmod 256)
  if ¬ (d0 < 0 ∨ d0 > 9) then some d0
  else if ¬ (d1 < 10 ∨ d1 > 15) then some d1
  else if ¬ (d2 < 10 ∨ d2 > 15) then some d2
  else none

/-- `StringToInteger.cpp:199-251` loop of the hexadecimal notation, `fuel = 1000 - i`. `totalShift` is a
`uint8`; it stops growing as soon as it exceeds the width. -/
def hexLoop (t : IType) : (fuel : Nat) → List UInt8 → (totalShift : Nat) → Int → Bool × Int
  | 0, _, _, n => (true, n)
  | _ + 1, [], _, n => (true, n)
  | fuel + 1, c :: cs, sh, n =>
    match hexDigitOf c with
    | none => (false, n)
    | some d =>
      let sh := (sh + 4) % 256
      if sh > t.w then (false, n)
      else hexLoop t fuel cs sh (t.cast (t.cast (n * 16) + d))

/-- `StringToInteger.cpp:199-251`. -/
def hex (t : IType) (input : List UInt8) : Bool × Int := hexLoop t 1000 input 0 0

/-- `StringToInteger.cpp:269-333` loop of the octal notation. -/
def octLoop (t : IType) (firstDigit : Int) : (fuel : Nat) → List UInt8 → (totalShift : Nat) → Int → Bool × Int
  | 0, _, _, n => (true, n)
  | _ + 1, [], _, n => (true, n)
  | fuel + 1, c :: cs, sh, n =>
    let d := newDigitOf c 48
    if d < 0 ∨ d > 7 then (false, n)
    else
      let sh := (sh + 3) % 256
      if (sh = t.w + 1 ∧ firstDigit > 3) ∨ (sh = t.w + 2 ∧ firstDigit > 1) ∨ sh > t.w + 2 then (false, n)
      else octLoop t firstDigit fuel cs sh (t.cast (t.cast (n * 8) + d))

/-- `StringToInteger.cpp:269-333`; `firstDigit` is the digit of the character at `i == 0`. -/
def oct (t : IType) (input : List UInt8) : Bool × Int :=
  octLoop t (newDigitOf (input.headD 0) 48) 1000 input 0 0

/-- `StringToInteger.cpp:351-394` loop of the binary notation. -/
def binLoop (t : IType) : (fuel : Nat) → List UInt8 → (totalShift : Nat) → Int → Bool × Int
  | 0, _, _, n => (true, n)
  | _ + 1, [], _, n => (true, n)
  | fuel + 1, c :: cs, sh, n =>
    let d := newDigitOf c 48
    if d < 0 ∨ d > 1 then (false, n)
    else
      let sh := (sh + 1) % 256
      if sh > t.w then (false, n)
      else binLoop t fuel cs sh (t.cast (t.cast (n * 2) + d))

/-- `StringToInteger.cpp:351-394`. -/
def bin (t : IType) (input : List UInt8) : Bool × Int := binLoop t 1000 input 0 0

/-- `StringToInteger.cpp:411-448` `StringToInteger`: the notation is chosen by the prefix. -/
def stringToInteger (t : IType) (input : List UInt8) : Bool × Int :=
  match input with
  | 48 :: rest =>
    match rest with
    | 120 :: xs => hex t xs        -- "0x"
    | 111 :: xs => oct t xs        -- "0o"
    | 98 :: xs => bin t xs         -- "0b"
    | [] => (true, 0)              -- "0"
    | _ => (false, 0)
  | _ => decimal t input

/-! ## Integer to text -/

/-- `IOBufferIntegerPrint.cpp:61-65` (71-75, 81-85, 90-94) one stage: multiply the power of ten reached so
far and keep the product if the number is not smaller.  The product is computed in `T`. -/
def magStep (t : IType) (n : Int) (factor : Int) (k : Nat) (s : Int × Nat) : Int × Nat :=
  let temp := t.cast (s.1 * factor)
  if n ≥ temp then (temp, s.2 + k) else s

/-- `IOBufferIntegerPrint.cpp:54-106` `GetOrderOfMagnitude`.  The last product can overflow for `int64`
(undefined behaviour in C++), modelled as wrap-around; the test `temp > tenToExponent` of line 100 relies
on it.  (`int8`/`int16` products are promoted to `int` and converted back, which is also a wrap.) -/
def orderOfMagnitude (t : IType) (n : Int) : Nat :=
  let s : Int × Nat := (1, 0)
  let s := if t.w ≥ 64 then magStep t n 10000000000 10 s else s
  let s := if t.w ≥ 32 then magStep t n 100000 5 s else s
  let s := if t.w ≥ 16 then magStep t n 100 2 s else s
  let s := magStep t n 10 1 s
  let temp := t.cast (s.1 * 10)
  if temp > s.1 then (if n ≥ temp then s.2 + 1 else s.2) else s.2

/-- `IOBufferIntegerPrint.cpp:399-408` the do-while filling `buffer` from the right; the digits come out in
printing order.  (At most five digits are produced for 16-bit values, so `buffer[5]` suffices: see
`digits16_length`.) -/
def digits16 (n : Nat) : List UInt8 :=
  if h : n / 10 > 0 then digits16 (n / 10) ++ [UInt8.ofNat (48 + n % 10)] else [UInt8.ofNat (48 + n % 10)]
termination_by n
decreasing_by omega

/-- `IOBufferIntegerPrint.cpp:392-432` the `sizeof(T) <= 2` case: zeros up to `numberFillLength` (at most 5)
then the digits. -/
def print16 (n : Nat) (fill : Int) : List UInt8 :=
  let ds := digits16 n
  let index : Int := 4 - ds.length
  let fill := if fill < 0 then 0 else fill
  let zeros : Nat :=
    if fill > 0 then
      let fill := if fill > 5 then 5 else fill
      (index - (5 - fill) + 1).toNat
    else 0
  List.replicate zeros 48 ++ ds

/-- `IOBufferIntegerPrint.cpp:330-349 / 365-382` the loop over the group divisors, followed by the last group
(353-355 / 386-388).  `x` is converted to `uint16`. -/
def printGroups : (tests : List (Nat × Int)) → (n : Nat) → (fill : Int) → List UInt8
  | [], n, fill => print16 (n % 2 ^ 16) fill
  | (test, figures) :: rest, n, fill =>
    if n > test ∨ fill > figures then
      print16 (n / test % 2 ^ 16) (fill - figures) ++ printGroups rest (n % test) figures
    else printGroups rest n fill

/-- `IOBufferIntegerPrint.cpp:311-433` `Number2StreamDecimalNotationPrivate` for a non-negative value of a
`w`-bit type. -/
def printPositive (w : Nat) (n : Nat) : List UInt8 :=
  if w = 64 then
    printGroups [(10000000000000000, 16), (1000000000000, 12), (100000000, 8), (10000, 4)] n 0
  else if w = 32 then printGroups [(100000000, 8), (10000, 4)] n 0
  else print16 n 0

/-- The literal texts of the minimum values, lines 676, 683, 690, 697. -/
def minText (w : Nat) : List UInt8 :=
  let s := if w = 64 then "-9223372036854775808" else if w = 32 then "-2147483648"
    else if w = 16 then "-32768" else "-128"
  s.toList.map (fun c => UInt8.ofNat c.toNat)

/-- The size each of those texts requires, lines 675, 682, 689, 696. -/
def minTextSize (w : Nat) : Nat := if w = 64 then 20 else if w = 32 then 11 else if w = 16 then 6 else 4

/-- `IOBufferIntegerPrint.cpp:632-774` `IntegerToStreamDecimalNotation`: the characters put on the stream.
`positiveNumber = -number` on the minimum value (undefined for 32/64 bits) is not used in that case. -/
def printDecimal (t : IType) (number : Int) (maximumSize : Nat) (padded leftAligned binaryPadded : Bool) :
    List UInt8 :=
  let padding : UInt8 := if binaryPadded then 48 else 32
  let padded := padded || binaryPadded
  let (maximumSize, padded) := if maximumSize = 0 then (20, false) else (maximumSize, padded)
  let positive : Int := if number < 0 then t.cast (-number) else number
  let isMin : Bool := (number = t.cast (2 ^ (t.w - 1))) && (number < 0)
  if isMin && (maximumSize ≥ minTextSize t.w) then minText t.w
  else
    let numberSize := if isMin then maximumSize + 1
      else (if number < 0 then 2 else 1) + orderOfMagnitude t positive
    if maximumSize < numberSize then
      (if padded && !leftAligned then List.replicate (maximumSize - 1) padding else []) ++ [63] ++
      (if padded && leftAligned then List.replicate (maximumSize - 1) 32 else [])
    else
      (if padded && !leftAligned then List.replicate (maximumSize - numberSize) padding else []) ++
      (if number < 0 then [45] else []) ++ printPositive t.w positive.toNat ++
      (if padded && leftAligned then List.replicate (maximumSize - numberSize) 32 else [])

end Verif.IntText
