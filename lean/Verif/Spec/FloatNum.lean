/-!
# Specification of the floating point numbers (for C66 and C67)

A finite number of a format with `p` binary digits is an integer in units of `2 ^ -K`.
-/
namespace Verif.Spec.FloatNum

/-- `x` (in units of `2 ^ -K`) is a finite number of a format of `p` digits, below `2 ^ top`. -/
def IsFloat (p top : Nat) (x : Int) : Prop :=
  (∃ m e, m < 2 ^ p ∧ x.natAbs = m * 2 ^ e) ∧ x.natAbs < 2 ^ top

/-- The least and the greatest integer of `n` bits. -/
def least (n : Nat) (signed : Bool) : Int := if signed then -2 ^ (n - 1) else 0
def greatest (n : Nat) (signed : Bool) : Int := if signed then 2 ^ (n - 1) - 1 else 2 ^ n - 1

end Verif.Spec.FloatNum
