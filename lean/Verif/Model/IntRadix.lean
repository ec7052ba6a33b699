import Verif.Model.IntText
/-!
# Model of the hexadecimal, octal and binary integer printers

`BareMetal/L3Streams/IOBufferIntegerPrint.cpp:107-294, 803-1255`, `BareMetal/L0Types/Shift.h:187-279`.
The output stream is the list of the characters put on it (unlimited stream, as in `IntText`).
-/
namespace Verif.IntText

/-- The three notations, written as three separate functions in the code. -/
inductive Radix | hex | oct | bin
deriving DecidableEq, Repr

/-- Bits of one digit. -/
def Radix.bits : Radix → Nat
  | .hex => 4
  | .oct => 3
  | .bin => 1

/-- `IOBufferIntegerPrint.cpp:117-155 (hex), 173-216 (octal), 234-287 (binary)`: the stages of the search of
the number of digits, `(s, d)` meaning `if (number >= 2^s) { nDigits += d; number >>= s; }`.  (The last stage
does not shift the number, which is not used afterwards.) -/
def Radix.stages (r : Radix) (w : Nat) : List (Nat × Nat) :=
  match r with
  | .hex => (if w = 64 then [(32, 8)] else []) ++ (if w ≥ 32 then [(16, 4)] else []) ++
      (if w ≥ 16 then [(8, 2)] else []) ++ [(4, 1)]
  | .oct => (if w = 64 then [(48, 16)] else []) ++ (if w ≥ 32 then [(24, 8)] else []) ++
      (if w ≥ 16 then [(12, 4)] else []) ++ [(6, 2), (3, 1)]
  | .bin => (if w = 64 then [(32, 32)] else []) ++ (if w ≥ 32 then [(16, 16)] else []) ++
      (if w ≥ 16 then [(8, 8)] else []) ++ [(4, 4), (2, 2), (1, 1)]

/-- One stage on `(number, nDigits)`. -/
def stage (s : Nat × Nat) (x : Nat × Nat) : Nat × Nat :=
  if x.1 ≥ 2 ^ s.1 then (x.1 / 2 ^ s.1, x.2 + s.2) else x

def runStages : List (Nat × Nat) → Nat × Nat → Nat × Nat
  | [], x => x
  | s :: ss, x => runStages ss (stage s x)

/-- `IOBufferIntegerPrint.cpp:117-162, 173-223, 234-294` `GetNumberOfDigits...Notation`; a negative number
takes all the digits of its type. -/
def numberOfDigits (r : Radix) (t : IType) (n : Int) : Nat :=
  if n ≥ 0 then (runStages (r.stages t.w) (n.toNat, 1)).2
  else match r with
    | .hex => t.w / 8 * 2
    | .oct => (t.w / 8 * 8 + 2) / 3
    | .bin => t.w / 8 * 8

/-- The character of a digit, lines 907-928, 1079-1082, 1231-1237. -/
def radixChar (d : Nat) : UInt8 := if d < 10 then UInt8.ofNat (48 + d) else UInt8.ofNat ((65 + d) - 10)

/-- The loops `for (uint8 i = bits; static_cast<int8>(i) >= 0; i -= k)`, lines 905-930, 1076-1086, 1229-1242:
the digit at bit `i` is `LogicalRightSafeShift(number, i)` (zero for `i` at or above the width, logical for
signed types, hence of the two's complement pattern `u`), truncated to `uint8` and masked. -/
def radixLoop (k : Nat) (w : Nat) (u : Nat) : (fuel : Nat) → (i : Int) → List UInt8
  | 0, _ => []
  | fuel + 1, i =>
    if i ≥ 0 then
      let shifted := if i.toNat ≥ w then 0 else u / 2 ^ i.toNat
      radixChar (shifted % 256 % 2 ^ k) :: radixLoop k w u fuel (i - k)
    else []

/-- The letter after the `0` of the header, lines 889-898, 1060-1069, 1213-1222. -/
def Radix.letter : Radix → UInt8
  | .hex => 120
  | .oct => 111
  | .bin => 98

/-- `IOBufferIntegerPrint.cpp:803-944, 972-1099, 1127-1255`.  `maximumSize` and `zeroPaddedBitSize` are
`uint16`; the sums below stay far below 2^16 for the sizes the callers can pass.  The start of the loop is
converted to `uint8` and read as `int8`. -/
def printRadix (r : Radix) (t : IType) (number : Int) (maximumSize : Nat) (padded leftAligned : Bool)
    (zeroPaddedBitSize : Nat) (addHeader : Bool) : List UInt8 :=
  let headerSize := if addHeader then 2 else 0
  let nd := numberOfDigits r t number
  let numberSize := headerSize + nd
  let (maximumSize, padded) := if maximumSize = 0 then (1000, false) else (maximumSize, padded)
  if maximumSize < numberSize then
    (if padded && !leftAligned then List.replicate (maximumSize - 1) 32 else []) ++ [63] ++
    (if padded && leftAligned then List.replicate (maximumSize - 1) 32 else [])
  else
    let zeroPaddedDigits := (zeroPaddedBitSize + (r.bits - 1)) / r.bits
    let (numberSize, nd) :=
      if zeroPaddedDigits > nd then
        let fullNumberSize := headerSize + zeroPaddedDigits
        if fullNumberSize > maximumSize then (maximumSize, zeroPaddedDigits - (fullNumberSize - maximumSize))
        else (fullNumberSize, zeroPaddedDigits)
      else (numberSize, nd)
    let start : Int := (((nd - 1) * r.bits % 256 : Nat) : Int).bmod 256
    (if padded && !leftAligned then List.replicate (maximumSize - numberSize) 32 else []) ++
    (if addHeader then [48, r.letter] else []) ++
    radixLoop r.bits t.w (number % (2 ^ t.w : Int)).toNat nd start ++
    (if padded && leftAligned then List.replicate (maximumSize - numberSize) 32 else [])

end Verif.IntText
