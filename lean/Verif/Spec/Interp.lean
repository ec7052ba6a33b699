import Verif.Model.Interp
/-!
# Specification of the interpolation (C73)

Only the type of the elements is taken from the model.
-/
namespace Verif.Spec.Interp

/-- The first sample at or after `t` from the sample `i` on. -/
def First (T : Nat → Nat) (i t j : Nat) : Prop := i ≤ j ∧ t ≤ T j ∧ ∀ l, i ≤ l → l < j → T l < t

/-- The samples between which the value is taken at the `k`-th call: the sample `q` is the first one at or after the
point `T i + k * period`, and `p` is the one that was in use before it. -/
inductive Segment (T : Nat → Nat) (i period : Nat) : Nat → Nat → Nat → Prop
  | first {q : Nat} : First T i (T i + period) q → Segment T i period 1 i q
  | stay {k p q : Nat} : Segment T i period k p q → T i + (k + 1) * period ≤ T q → Segment T i period (k + 1) p q
  | move {k p q q' : Nat} : Segment T i period k p q → T q < T i + (k + 1) * period →
      First T q (T i + (k + 1) * period) q' → Segment T i period (k + 1) q q'

/-- The point at `t` of the line through `(x0, y0)` and `(x1, y1)`, towards zero. -/
def line (x0 x1 : Nat) (y0 y1 : Int) (t : Nat) : Int :=
  Int.tdiv (y0 * ((x1 : Int) - x0) + (y1 - y0) * ((t : Int) - x0)) ((x1 : Int) - x0)

/-- The slope of the line is a fraction whose denominator is a power of two, and the numbers are small enough. -/
def Dyadic (x0 x1 : Nat) (y0 y1 : Int) : Prop :=
  ∃ d k : Nat, d * 2 ^ k = x1 - x0 ∧ (∃ a : Int, y1 - y0 = a * d) ∧ (y0.natAbs + y1.natAbs) * 2 ^ k < 2 ^ 53 ∧ x1 - x0 < 2 ^ 53

/-- The values are of the type and so is their difference, after the promotion of small types. -/
def NoWrap (ty : Verif.Interp.Ty) (y0 y1 : Int) : Prop :=
  (if ty.signed then -2 ^ (ty.bits - 1) else 0) ≤ y0 ∧ y0 ≤ (if ty.signed then 2 ^ (ty.bits - 1) - 1 else 2 ^ ty.bits - 1) ∧
  (if ty.signed then -2 ^ (ty.bits - 1) else 0) ≤ y1 ∧ y1 ≤ (if ty.signed then 2 ^ (ty.bits - 1) - 1 else 2 ^ ty.bits - 1) ∧
  (ty.bits < 32 ∨ (ty.signed = true ∧ -2 ^ (ty.bits - 1) ≤ y1 - y0 ∧ y1 - y0 ≤ 2 ^ (ty.bits - 1) - 1) ∨
    (ty.signed = false ∧ y0 ≤ y1))

end Verif.Spec.Interp
