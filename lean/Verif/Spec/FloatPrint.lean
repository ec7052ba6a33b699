import Verif.Model.FloatPrint
/-! ## Specification: texts for numbers -/
namespace Verif.Spec.FloatPrint
open Verif.FloatPrint (Notation)

/-- The `k` last decimal digits of `n`, with zeros in front if there are fewer. -/
def lastDigits : (k n : Nat) → List Char
  | 0, _ => []
  | k + 1, n => lastDigits k (n / 10) ++ [Char.ofNat (48 + n % 10)]

/-- Digits with `n` of them before the dot (zeros for those that are missing), and no dot if no digit is left. -/
def lay : List Char → (n : Nat) → List Char
  | [], 0 => []
  | d :: ds, 0 => '.' :: d :: ds
  | [], n + 1 => '0' :: lay [] n
  | d :: ds, n + 1 => d :: lay ds n

/-- Digits of which the first counts `10 ^ e`. -/
def place (ds : List Char) (e : Int) : List Char :=
  if e < 0 then ['0', '.'] ++ List.replicate (-e - 1).toNat '0' ++ ds else lay ds (e + 1).toNat

/-- `n` is `x`, a positive number, rounded (a half upwards) to `p` digits, of which the first counts `10 ^ e`: a multiple of
`10 ^ (e - p + 1)`. -/
def Rounded (x : Rat) (p : Nat) (e : Int) (n : Nat) : Prop :=
  0 < p ∧ 10 ^ (p - 1) ≤ n ∧ n < 10 ^ p ∧ (n : Int) = (x * (10 : Rat) ^ ((p : Int) - 1 - e) + 1 / 2).floor

/-- `E+12`, `E-3`; nothing for zero. -/
def power (e : Int) : List Char :=
  if e = 0 then [] else ['E', if e > 0 then '+' else '-'] ++ Nat.toDigits 10 e.natAbs

/-- The greatest multiple of three that is not above `e`. -/
def triple (e : Int) : Int := 3 * (e / 3)

/-- The letters for multiples of three. -/
def letter : Int → Option Char
  | -24 => some 'y' | -21 => some 'z' | -18 => some 'a' | -15 => some 'f' | -12 => some 'p' | -9 => some 'n' | -6 => some 'u' | -3 => some 'm'
  | 3 => some 'K' | 6 => some 'M' | 9 => some 'G' | 12 => some 'T' | 15 => some 'P' | 18 => some 'E' | 21 => some 'Z' | 24 => some 'Y'
  | _ => none

/-- The text of the digits `ds`, of which the first counts `10 ^ e`, in a notation. -/
def written (n : Notation) (ds : List Char) (e : Int) : List Char :=
  match n with
  | .fixed => place ds e
  | .relative => place ds e
  | .exponent => place ds 0 ++ power e
  | .engineering => place ds (e - triple e) ++ power (triple e)
  | .smart => place ds (e - triple e) ++ (match letter (triple e) with | some c => [c] | none => power (triple e))
  | .compact =>
    if -24 ≤ triple e ∧ triple e ≤ 24 then place ds (e - triple e) ++ (letter (triple e)).toList else place ds 0 ++ power e

/-- The number of digits (of decimals for `%f`) that a precision asks for; 255 is the default. -/
def asked (wide : Bool) (n : Notation) (precision : Nat) : Nat :=
  if precision = 255 then (match n with | .fixed => 6 | _ => if wide then 15 else 7) else precision

end Verif.Spec.FloatPrint
