/-!
# Model of the integer `SquareRoot` of `BareMetal/L1Portability/FastMath.h`

The four unsigned specialisations (lines 299-413) have the same text and differ in the width `2*m` of
the type.  C++ evaluates `res + bit` after integer promotion, in `P` bits: `P = 32` for 8, 16 and 32
bit operands, `P = 64` for 64 bit ones.  Values are naturals; every place where the C++ value could
wrap carries an explicit `% 2 ^ _`.
-/
namespace Verif.Sqrt

/-- `FastMath.h:308-310` (337, 366, 395) `while (bit > tmp) bit >>= 2`. -/
def scaleBit (tmp bit : Nat) : Nat :=
  if h : bit > tmp then scaleBit tmp (bit >>> 2) else bit
termination_by bit
decreasing_by
  simp only [Nat.shiftRight_eq_div_pow]; exact Nat.div_lt_self (by omega) (by omega)

/-- `FastMath.h:312-322` (341, 370, 399) the digit loop.  `W` is the width of the type (the assignments
to `tmp` and `res` truncate to it), `P` the width in which `res + bit` is evaluated. -/
def digits (W P : Nat) (tmp res bit : Nat) : Nat :=
  if h : bit = 0 then res
  else if tmp ≥ (res + bit) % 2 ^ P then
    digits W P ((tmp - (res + bit) % 2 ^ P) % 2 ^ W) (((res >>> 1) + bit) % 2 ^ W) (bit >>> 2)
  else
    digits W P tmp (res >>> 1) (bit >>> 2)
termination_by bit
decreasing_by
  all_goals
    simp only [Nat.shiftRight_eq_div_pow]; exact Nat.div_lt_self (by omega) (by omega)

/-- `FastMath.h:299-413` `SquareRoot<uintW>`, `W = 2*m`; `bit` starts at the second-to-top bit. -/
def squareRootU (m P : Nat) (x : Nat) : Nat :=
  digits (2 * m) P x 0 (scaleBit x (2 ^ (2 * m - 2)))

def squareRootU8 (x : Nat) := squareRootU 4 32 x    -- lines 299-326
def squareRootU16 (x : Nat) := squareRootU 8 32 x   -- lines 328-355
def squareRootU32 (x : Nat) := squareRootU 16 32 x  -- lines 357-384
def squareRootU64 (x : Nat) := squareRootU 32 64 x  -- lines 386-413

/-- `FastMath.h:415-469` `SquareRoot<intW>`: negate a negative argument, convert to unsigned, take the
root, convert back.  `tmp2 *= -1` is evaluated after promotion: for 8/16 bits it is exact and the
conversion back wraps; for 32/64 bits negating the minimum is undefined behaviour (`none`). -/
def squareRootI (m P : Nat) (x : Int) : Option Nat :=
  if x < 0 ∧ 2 * m = P ∧ x = -(2 ^ (2 * m - 1) : Int) then none
  else
    let tmp2 : Int := if x < 0 then -x else x
    let tmp : Nat := (tmp2 % (2 ^ (2 * m) : Int)).toNat
    some (squareRootU m P tmp)

end Verif.Sqrt
