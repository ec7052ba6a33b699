import Verif.Proof.SquareRoot

namespace Verif.Sqrt

/-- Independent specification: `r` is the integer part of the real square root of `x`. -/
def IsFloorSqrt (r x : Nat) : Prop := r * r ≤ x ∧ ∀ s, s * s ≤ x → s ≤ r

theorem isFloorSqrt_of {r x : Nat} (h : r * r ≤ x ∧ x < (r + 1) * (r + 1)) : IsFloorSqrt r x := by
  refine ⟨h.1, fun s hs => ?_⟩
  have : s * s < (r + 1) * (r + 1) := by omega
  have := Nat.mul_self_lt_mul_self_iff.mp this
  omega

/-- **C13.** For each unsigned type the returned value is the integer part of the square root, for every
argument of the type (termination is part of the definition of the model functions). -/
theorem c13_squareRoot_unsigned :
    (∀ x < 2 ^ 8, IsFloorSqrt (squareRootU8 x) x) ∧ (∀ x < 2 ^ 16, IsFloorSqrt (squareRootU16 x) x) ∧
    (∀ x < 2 ^ 32, IsFloorSqrt (squareRootU32 x) x) ∧ (∀ x < 2 ^ 64, IsFloorSqrt (squareRootU64 x) x) :=
  ⟨fun x h => isFloorSqrt_of (squareRootU_spec 4 32 x (by decide) (by decide) h),
   fun x h => isFloorSqrt_of (squareRootU_spec 8 32 x (by decide) (by decide) h),
   fun x h => isFloorSqrt_of (squareRootU_spec 16 32 x (by decide) (by decide) h),
   fun x h => isFloorSqrt_of (squareRootU_spec 32 64 x (by decide) (by decide) h)⟩

example : IsFloorSqrt (squareRootU32 4294967295) 4294967295 :=
  c13_squareRoot_unsigned.2.2.1 _ (by decide)

/-- **C13.** The signed versions return the integer part of the square root of the magnitude; for 32 and
64 bits the minimum value is excluded because negating it is undefined behaviour. -/
theorem c13_squareRoot_signed (m P : Nat) (hm : 1 ≤ m) (hP : 2 * m ≤ P) (x : Int)
    (hlo : -(2 ^ (2 * m - 1) : Int) ≤ x) (hhi : x < (2 ^ (2 * m - 1) : Int))
    (hub : 2 * m = P → x ≠ -(2 ^ (2 * m - 1) : Int)) :
    ∃ r, squareRootI m P x = some r ∧ IsFloorSqrt r x.natAbs := by
  have pp : (2 ^ (2 * m) : Int) = 2 * 2 ^ (2 * m - 1) := by
    rw [show 2 * m = (2 * m - 1) + 1 by omega, Int.pow_succ]; simp; omega
  have ppn : (2 ^ (2 * m) : Nat) = 2 * 2 ^ (2 * m - 1) := by
    rw [show 2 * m = (2 * m - 1) + 1 by omega, Nat.pow_succ]; simp; omega
  have hpos : (0:Int) < 2 ^ (2 * m - 1) := Int.pow_pos (by decide)
  have hcast : ((2 ^ (2 * m - 1) : Nat) : Int) = 2 ^ (2 * m - 1) := by simp
  unfold squareRootI
  rw [if_neg (fun h => hub h.2.1 h.2.2)]
  refine ⟨_, rfl, ?_⟩
  have e : ((if x < 0 then -x else x) % (2 ^ (2 * m) : Int)).toNat = x.natAbs := by
    rw [Int.emod_eq_of_lt (by split <;> omega) (by split <;> omega)]
    split <;> omega
  simp only [e]
  exact isFloorSqrt_of (squareRootU_spec m P _ hm hP (by omega))

example : ∃ r, squareRootI 4 32 (-128) = some r ∧ IsFloorSqrt r 128 :=
  c13_squareRoot_signed 4 32 (by decide) (by decide) (-128) (by decide) (by decide) (by decide)

/-- The exclusion is needed: on `INT32_MIN` the 32-bit version is undefined. -/
theorem c13_int32_min_undefined : squareRootI 16 32 (-2147483648) = none := by
  simp [squareRootI]

end Verif.Sqrt
