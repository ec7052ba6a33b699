import Verif.Model.FloatNum
/-!
# Model of the printing of floating point numbers (`BareMetal/L3Streams/IOBufferFloatPrint.cpp`)

A finite number is a rational number; `rnd` is what an operation of the machine makes of the exact result (`id`: the exact
arithmetic; for the arithmetic of IEEE 754 see `Verif.FloatNum`).  The constants of the code are rounded in the same way.
`NaN` and the infinities are apart.

Simplifications: `PutC` succeeds; the exponents and precisions of the code (`int16`) are integers: sizes and precisions have 8
bits and exponents of numbers are between -400 and 400, so that none of them overflows; a loop is a recursion over the turns that
remain.
-/
namespace Verif.FloatPrint

/-- `IOBufferFloatPrint.cpp:46-50` `CHECK_AND_REDUCE`. -/
def reduce (rnd : Rat → Rat) (s : Rat × Int) (step : Nat) : Rat × Int :=
  if s.1 ≥ rnd (10 ^ step) then (rnd (s.1 * rnd ((10 ^ step)⁻¹)), s.2 + step) else s

/-- `IOBufferFloatPrint.cpp:63-67` `CHECK_AND_INCREASE`. -/
def increase (rnd : Rat → Rat) (s : Rat × Int) (step : Nat) : Rat × Int :=
  if s.1 ≤ rnd ((10 ^ step)⁻¹) then (rnd (s.1 * rnd (10 ^ (step + 1))), s.2 - (step + 1)) else s

/-- `IOBufferFloatPrint.cpp:229-274` `NormalizeFloatNumberPrivate`; `wide` for `float64`. -/
def normalise (rnd : Rat → Rat) (wide : Bool) (x : Rat) : Rat × Int :=
  if x > 0 then
    if x ≥ 1 then ((if wide then [256, 128, 64] else []) ++ [32, 16, 8, 4, 2, 1]).foldl (reduce rnd) (x, 0)
    else ((if wide then [256, 128, 64] else []) ++ [32, 16, 8, 4, 2, 1, 0]).foldl (increase rnd) (x, 0)
  else (x, 0)

/-- `IOBufferFloatPrint.cpp:285-312` `FastPowerOf10Private`: the squares and products from the highest bit of the exponent on. -/
def power (rnd : Rat → Rat) (radix : Rat) : (bits : Nat) → (n : Nat) → Rat
  | 0, _ => 1
  | bits + 1, n =>
    if n = 0 then 1
    else
      let h := power rnd radix bits (n / 2)
      let q := rnd (h * h)
      if n % 2 = 1 then rnd (q * radix) else q

/-- `IOBufferFloatPrint.cpp:285-312`: the power for an exponent of either sign. -/
def fastPower (rnd : Rat → Rat) (e : Int) : Rat :=
  if e < 0 then power rnd (rnd (1 / 10)) 14 e.natAbs else power rnd 10 14 e.natAbs

/-- `IOBufferFloatPrint.cpp:319-354` `NumberOfDigitsOfExponent`. -/
def expSize (e : Int) : Int :=
  if e = 0 then 0
  else
    let a := if e < 0 then -e else e
    if a < 100 then (if a ≥ 10 then 4 else 3) else if a ≥ 10000 then 7 else if a ≥ 1000 then 6 else 5

/-- `IOBufferFloatPrint.cpp:362-379` `ExponentToEngineeringPrivate`: the multiple of three; the division truncates. -/
def engineering (e : Int) : Int := (if e < 0 then Int.tdiv (e - 2) 3 else Int.tdiv e 3) * 3

/-- `IOBufferFloatPrint.cpp:396-517` `NumberOfDigitsFixedNotation`: the size and the number of digits. -/
def sizeFixed (e : Int) (sign : Bool) (prec room : Int) : Int × Int :=
  let size := (if e ≥ 0 then e + 1 else 1) + (if sign then 1 else 0)
  let left := room - size
  if left < 0 then (1, if e ≥ 0 then -1 else 0)
  else if prec > 0 then
    if left < 2 then (size, if e ≥ 0 then e + 1 else 0)
    else
      let left := left - 1
      let size := size + 1
      let excess := prec - left
      let wanted := if excess > 0 then left else prec
      let prec := if excess > 0 then prec - excess else prec
      let p := prec + e + 1
      if p < 0 then (1, 0) else (size + wanted, p)
  else
    let p := prec + e + 1
    if p < 0 then (1, 0) else (size, p)

/-- `IOBufferFloatPrint.cpp:534-657` `NumberOfDigitsFixedRelativeNotation`. -/
def sizeRelative (e : Int) (sign : Bool) (prec room : Int) : Int × Int :=
  let wanted := if e ≥ 0 then prec - (e + 1) else prec - 1
  let size := (if e ≥ 0 then e + 1 else 2 - e) + (if sign then 1 else 0)
  let left := room - size
  if left < 0 then (1, if e ≥ 0 then -1 else 0)
  else if wanted > 0 then
    if left = 0 then (size, prec - wanted)
    else if e ≥ 0 ∧ left = 1 then (size, prec - wanted)
    else
      let size := if e ≥ 0 then size + 1 else size
      let left := if e ≥ 0 then left - 1 else left
      let excess := wanted - left
      if excess > 0 then (size + left, prec - excess) else (size + wanted, prec)
  else (size, prec)

inductive Notation where
  | fixed | relative | exponent | engineering | smart | compact
deriving DecidableEq, Repr

/-- `IOBufferFloatPrint.cpp:672-835`: `NumberOfDigitsExponentialNotation` and the others. -/
def withExponent (x m : Int) (sign : Bool) (prec room : Int) : Int × Int :=
  if prec > 0 then
    let r := sizeRelative m sign prec (room - x)
    (x + r.1, r.2)
  else (1, prec)

/-- The exponent is a letter (`IOBufferFloatPrint.cpp:763`, `:811`, `:1093`, `:1112`). -/
def inRange (e : Int) : Bool := -24 ≤ e && e ≤ 24

/-- `IOBufferFloatPrint.cpp:848-889` `NumberOfDigitsNotation`. -/
def sizeOf (n : Notation) (e : Int) (sign : Bool) (prec room : Int) : Int × Int :=
  let g := engineering e
  match n with
  | .fixed => sizeFixed e sign prec room
  | .relative => sizeRelative e sign prec room
  | .exponent => withExponent (expSize e) 0 sign prec room
  | .engineering => withExponent (expSize g) (e - g) sign prec room
  | .smart => withExponent (if g ≠ 0 ∧ inRange g then 1 else expSize g) (e - g) sign prec room
  | .compact =>
    if inRange g then withExponent (if g ≠ 0 then 1 else 0) (e - g) sign prec room
    else withExponent (expSize e) 0 sign prec room

/-- `'0' + digit`, the cast to eight bits. -/
def digitChar (d : Int) : Char := Char.ofNat ((48 + d) % 256).toNat

/-- `IOBufferFloatPrint.cpp:991-1031`: the loop for the digits, at most `turns` times. -/
def digits (rnd : Rat → Rat) : (turns : Nat) → (x : Rat) → (e prec : Int) → List Char
  | 0, _, _, _ => []
  | turns + 1, x, e, prec =>
    if e ≥ 0 ∨ prec > 0 then
      let dot := if e = -1 then ['.'] else []
      let next := if prec > 0 then prec - 1 else prec
      if prec = 0 then dot ++ '0' :: digits rnd turns x (e - 1) next
      else dot ++ digitChar x.floor :: digits rnd turns (rnd (rnd (x - x.floor) * 10)) (e - 1) next
    else []

/-- `IOBufferFloatPrint.cpp:947-1034` `FloatToFixedPrivate`. -/
def fixed (rnd : Rat → Rat) (x : Rat) (e prec : Int) : List Char :=
  if x < 0 ∨ x ≥ 10 then ['!']
  else if e < 0 then ['0', '.'] ++ List.replicate (-(e + 1)).toNat '0' ++ digits rnd prec.toNat x (e - 1) prec
  else digits rnd ((e + 1).toNat + prec.toNat) x e prec

/-- `IOBufferFloatPrint.cpp:897-924` `ExponentToStreamPrivate`; the numeral is that of `Nat.repr`. -/
def expText (e : Int) : List Char :=
  if e = 0 then [] else ['E', if e > 0 then '+' else '-'] ++ Nat.toDigits 10 e.natAbs

/-- `IOBufferFloatPrint.cpp:1094`, `:1119` the letters. -/
def symbol (g : Int) : Char := "yzafpnum KMGTPEZY".toList.getD (Int.tdiv g 3 + 8).toNat '?'

/-- `IOBufferFloatPrint.cpp:1048-1137` `FloatToStreamPrivate` (the one for a notation). -/
def body (rnd : Rat → Rat) (n : Notation) (x : Rat) (e prec : Int) : List Char :=
  let g := engineering e
  match n with
  | .fixed => fixed rnd x e prec
  | .relative => fixed rnd x e prec
  | .exponent => fixed rnd x 0 prec ++ expText e
  | .engineering => fixed rnd x (e - g) prec ++ expText g
  | .smart => fixed rnd x (e - g) prec ++ (if g ≠ 0 ∧ inRange g then [symbol g] else expText g)
  | .compact =>
    if inRange g then fixed rnd x (e - g) prec ++ (if g ≠ 0 then [symbol g] else [])
    else fixed rnd x 0 prec ++ expText e

/-- `IOBufferFloatPrint.cpp:1217-1230` `RoundUpNumber`. -/
def roundUp (rnd : Rat → Rat) (x : Rat) (prec : Int) : Rat := rnd (x + rnd (fastPower rnd (-prec) * 5))

/-- What is printed: `IOBufferFloatPrint.cpp:1141-1149` `FloatDisplayModes`. -/
inductive Mode where
  | normal (x : Rat) (e prec : Int)
  | zero
  | noSpace
deriving DecidableEq

/-- `IOBufferFloatPrint.cpp:1371-1391`: the size and the number of digits of a number, and what they mean. -/
def settle (n : Notation) (sign : Bool) (prec room : Int) (x : Rat) (e : Int) : Int × Mode :=
  let r := sizeOf n e sign prec room
  if r.2 = 0 then (1, .zero) else if r.2 < 0 then (1, .noSpace) else (r.1, .normal x e r.2)

/-- `IOBufferFloatPrint.cpp:1323-1356`: the number with the correction of the rounding, for `q` digits. -/
def corrected (rnd : Rat → Rat) (n : Notation) (x : Rat) (q : Int) : Rat :=
  if n = .fixed ∨ n = .relative then (if q ≥ 0 then roundUp rnd x q else x) else if q ≥ 0 then roundUp rnd x q else roundUp rnd x 1

/-- `IOBufferFloatPrint.cpp:1320-1369`: the precision if the correction gives ten. -/
def precisionAfter (n : Notation) (q formatPrec : Int) : Int :=
  let after := if n = .fixed ∨ n = .relative then formatPrec else if q ≥ 0 then q + 1 else 2
  if after > formatPrec then formatPrec else after

/-- `IOBufferFloatPrint.cpp:1313-1391`: normalisation, size and rounding of a number that is not zero (its absolute value); the size. -/
def choose (rnd : Rat → Rat) (wide : Bool) (n : Notation) (sign : Bool) (x : Rat) (formatPrec room : Int) : Int × Mode :=
  let s := normalise rnd wide x
  let q := (sizeOf n s.2 sign formatPrec room).2
  let y := corrected rnd n s.1 q
  if y ≥ 10 then settle n sign (precisionAfter n q formatPrec) room (rnd (y / 10)) (s.2 + 1)
  else settle n sign formatPrec room y s.2

/-- The fields of a format that matter here (`FormatDescriptor.h:290-370`); 255 is the default precision. -/
structure Fmt where
  size : Nat
  precision : Nat
  padded : Bool
  leftAligned : Bool
  floatNotation : Notation

/-- A number of the machine. -/
inductive Num where
  | nan
  | inf (negative : Bool)
  | fin (x : Rat)
deriving DecidableEq, Repr

/-- `IOBufferFloatPrint.cpp:1250-1282`: the size that is available and the precision. -/
def room (f : Fmt) : Int := if f.size = 0 then 1000 else f.size

/-- `IOBufferFloatPrint.cpp:1263-1282`: the precision, with the defaults. -/
def precision (wide : Bool) (f : Fmt) : Int :=
  if f.precision = 255 then (if f.floatNotation = .fixed then 6 else if wide then 15 else 7) else f.precision

/-- `IOBufferFloatPrint.cpp:1160-1206` `CheckNumber` and `:1301-1491`: the size and the text without padding. -/
def plain (rnd : Rat → Rat) (wide : Bool) (f : Fmt) : Num → Int × List Char
  | .nan => if room f < 3 then (1, ['?']) else (3, ['N', 'a', 'N'])
  | .inf negative => if room f < 4 then (1, ['?']) else (4, (if negative then '-' else '+') :: ['I', 'n', 'f'])
  | .fin x =>
    if x = 0 then (1, ['0'])
    else
      let sign := decide (x < 0)
      let c := choose rnd wide f.floatNotation sign (if sign then -x else x) (precision wide f) (room f)
      match c.2 with
      | .zero => (c.1, ['0'])
      | .noSpace => (c.1, ['?'])
      | .normal y e p => (c.1, (if sign then ['-'] else []) ++ body rnd f.floatNotation y e p)

/-- `IOBufferFloatPrint.cpp:1246-1505` `FloatToStreamPrivate`: with the spaces. -/
def print (rnd : Rat → Rat) (wide : Bool) (f : Fmt) (x : Num) : List Char :=
  let r := plain rnd wide f x
  let spaces := if f.padded ∧ f.size ≠ 0 then List.replicate (room f - r.1).toNat ' ' else []
  if f.leftAligned then r.2 ++ spaces else spaces ++ r.2

/-- The rounding of IEEE 754 (see `Verif.FloatNum`), for numbers that are not infinite. -/
def ieee (f : Verif.FloatNum.Fmt) (x : Rat) : Rat :=
  let n := Verif.FloatNum.rneQ f.p (x.num.natAbs * 2 ^ f.K) x.den
  mkRat (if x < 0 then -(n : Int) else n) (2 ^ f.K)

end Verif.FloatPrint
