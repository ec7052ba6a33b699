/-!
# Floating point numbers (IEEE 754 binary32 and binary64, rounding to the nearest, ties to even)

The arithmetic of the machine is not part of the repository: it is modelled here because the code of the conversions
relies on it.  A finite number is the integer `n` that stands for `n / 2 ^ K`, where `2 ^ -K` is the least positive
number of the format; so all the finite numbers, also the subnormal ones, are integers.  The sign of zero is left out.
-/
namespace Verif.FloatNum

/-- A format: digits of the significand, `K`, and `top`: the numbers from `2 ^ top` on (in units of `2 ^ -K`) are
infinite. -/
structure Fmt where
  p : Nat
  K : Nat
  top : Nat
deriving DecidableEq, Repr

/-- `GeneralDefinitions.h` `float32`. -/
def f32 : Fmt := ⟨24, 149, 277⟩
/-- `GeneralDefinitions.h` `float64`. -/
def f64 : Fmt := ⟨53, 1074, 2098⟩

/-- A value of a format. -/
inductive Flt where
  | nan
  | inf (negative : Bool)
  | fin (n : Int)
deriving DecidableEq, Repr

/-- `a / b` rounded to `p` binary digits, ties to even (and to an integer when it has fewer digits). -/
def rneQ (p a b : Nat) : Nat :=
  let e := Nat.log2 (a / b) + 1 - p
  let D := b * 2 ^ e
  let q := a / D
  let r := a % D
  (if 2 * r > D ∨ (2 * r = D ∧ q % 2 = 1) then q + 1 else q) * 2 ^ e

/-- The result of an operation whose exact result is `±a / b`. -/
def roundQ (f : Fmt) (negative : Bool) (a b : Nat) : Flt :=
  let m := rneQ f.p a b
  if 2 ^ f.top ≤ m then .inf negative else .fin (if negative then -(m : Int) else m)

/-- The result of an operation whose exact result is `n`. -/
def round (f : Fmt) (n : Int) : Flt := roundQ f (n < 0) n.natAbs 1

/-- `static_cast<FloatType>(integer)`. -/
def ofInt (f : Fmt) (i : Int) : Flt := round f (i * 2 ^ f.K)

/-- Addition. -/
def add (f : Fmt) : Flt → Flt → Flt
  | .nan, _ => .nan
  | _, .nan => .nan
  | .inf a, .inf b => if a = b then .inf a else .nan
  | .inf a, .fin _ => .inf a
  | .fin _, .inf b => .inf b
  | .fin x, .fin y => round f (x + y)

/-- Subtraction. -/
def sub (f : Fmt) : Flt → Flt → Flt
  | .nan, _ => .nan
  | _, .nan => .nan
  | .inf a, .inf b => if a = b then .nan else .inf a
  | .inf a, .fin _ => .inf a
  | .fin _, .inf b => .inf (!b)
  | .fin x, .fin y => round f (x - y)

/-- Multiplication. -/
def mul (f : Fmt) : Flt → Flt → Flt
  | .nan, _ => .nan
  | _, .nan => .nan
  | .inf a, .inf b => .inf (a != b)
  | .inf a, .fin y => if y = 0 then .nan else .inf (a != decide (y < 0))
  | .fin x, .inf b => if x = 0 then .nan else .inf (b != decide (x < 0))
  | .fin x, .fin y => roundQ f (decide (x < 0) != decide (y < 0)) (x.natAbs * y.natAbs) (2 ^ f.K)

/-- Division (by a finite number other than zero). -/
def div (f : Fmt) : Flt → Flt → Flt
  | .fin x, .fin y =>
    if y = 0 then (if x = 0 then .nan else .inf (x < 0))
    else roundQ f (decide (x < 0) != decide (y < 0)) (x.natAbs * 2 ^ f.K) y.natAbs
  | .inf a, .fin y => .inf (a != decide (y < 0))
  | .fin _, .inf _ => .fin 0
  | _, _ => .nan

/-- `-x`. -/
def neg : Flt → Flt
  | .nan => .nan
  | .inf a => .inf (!a)
  | .fin x => .fin (-x)

/-- `a >= b`. -/
def ge : Flt → Flt → Bool
  | .nan, _ => false
  | _, .nan => false
  | .inf a, .inf b => !a || b
  | .inf a, .fin _ => !a
  | .fin _, .inf b => b
  | .fin x, .fin y => decide (y ≤ x)

/-- `a <= b`. -/
def le (a b : Flt) : Bool := ge b a

/-- `a > b`. -/
def gt (a b : Flt) : Bool := match a, b with
  | .nan, _ => false
  | _, .nan => false
  | a, b => !ge b a

/-- `GeneralDefinitions.h:83-96` `IsNaN`. -/
def isNaN : Flt → Bool
  | .nan => true
  | _ => false

/-- `GeneralDefinitions.h:99-108` `IsInf`: not a NaN but `x - x` is. -/
def isInf (f : Fmt) (x : Flt) : Bool := !isNaN x && isNaN (sub f x x)

end Verif.FloatNum
