import Verif.Model.Shift
import Verif.Spec.Shift
/-!
# C119: the safe shifts are multiplications and divisions by powers of two, for every amount
-/
set_option linter.unusedSimpArgs false
namespace Verif.Shift
open Spec

private theorem lt_pow {w s : Nat} (x : BitVec w) (h : w ≤ s) : x.toNat < 2 ^ s :=
  Nat.lt_of_lt_of_le x.isLt (Nat.pow_le_pow_right (by omega) h)

/-- **C119.** A logical right shift divides by the power of two, for every amount (also beyond the size of the type). -/
theorem c119_logical_right {w : Nat} (x : BitVec w) (s : Nat) : IsLogicalRight x s (logicalRight x s) := by
  unfold IsLogicalRight logicalRight
  split
  · rename_i h
    rw [Nat.div_eq_of_lt (lt_pow x h)]
    simp
  · rw [BitVec.toNat_ushiftRight, Nat.shiftRight_eq_div_pow]

private theorem left_ok {w : Nat} (x : BitVec w) (s : Nat) : IsLeft x s (if w ≤ s then 0 else x <<< s) := by
  unfold IsLeft
  split
  · rename_i h
    have : 2 ^ w ∣ x.toNat * 2 ^ s := Nat.dvd_trans (Nat.pow_dvd_pow 2 h) (Nat.dvd_mul_left _ _)
    rw [Nat.mod_eq_zero_of_dvd this]
    simp
  · rw [BitVec.toNat_shiftLeft, Nat.shiftLeft_eq]

/-- **C119.** Both left shifts multiply by the power of two and keep the bits that fit, for every amount. -/
theorem c119_left {w : Nat} (x : BitVec w) (s : Nat) : IsLeft x s (logicalLeft x s) ∧ IsLeft x s (mathLeft x s) :=
  ⟨left_ok x s, left_ok x s⟩

/-- **C119.** The right shift of a number divides it, rounding down: of numbers without sign for every amount; of numbers with sign if
the amount is below the size or the number is not negative. -/
theorem c119_math_right_partial {w : Nat} (x : BitVec w) (s : Nat) :
    IsLogicalRight x s (mathRight false x s) ∧ (s < w ∨ 0 ≤ x.toInt → IsSignedRight x s (mathRight true x s)) := by
  refine ⟨?_, fun h => ?_⟩
  · have := c119_logical_right x s
    unfold logicalRight at this
    unfold mathRight
    simpa using this
  · unfold IsSignedRight mathRight
    split
    · rename_i hw
      have h0 : 0 ≤ x.toInt := by omega
      have hx : x.toInt = x.toNat := by
        rw [BitVec.toInt_eq_toNat_cond] at h0 ⊢
        split at h0
        · rw [if_pos (by assumption)]
        · have := x.isLt; omega
      have hlt := lt_pow x hw
      rw [hx, show ((x.toNat : Int) / 2 ^ s) = ((x.toNat / 2 ^ s : Nat) : Int) by simp, Nat.div_eq_of_lt hlt]
      simp
    · rw [if_pos rfl, BitVec.toInt_sshiftRight, Int.shiftRight_eq_div_pow]
      simp

/-- **C119 fails for negative numbers shifted right by the size of the type or more**: the result is zero; the division rounded down
is minus one. -/
theorem c119_math_right_fails {w : Nat} (x : BitVec w) (s : Nat) (h : w ≤ s) (hx : x.toInt < 0) :
    mathRight true x s = 0 ∧ ¬ IsSignedRight x s (mathRight true x s) := by
  have h1 : mathRight true x s = 0 := by unfold mathRight; rw [if_pos h]
  refine ⟨h1, ?_⟩
  unfold IsSignedRight
  rw [h1]
  have hp : (0 : Int) < 2 ^ s := Int.pow_pos (by decide)
  have := Int.ediv_neg_of_neg_of_pos hx hp
  have h0 : (0 : BitVec w).toInt = 0 := by simp
  omega

private theorem shift_double (a b w s : Nat) (h : s < w) :
    (a * 2 ^ w + b) / 2 ^ s = a / 2 ^ s * 2 ^ w + (b / 2 ^ s + a % 2 ^ s * 2 ^ (w - s)) := by
  have e : 2 ^ w = 2 ^ (w - s) * 2 ^ s := by rw [← Nat.pow_add]; congr 1; omega
  have hp : 0 < 2 ^ s := Nat.pow_pos (by decide)
  have h1 : a * 2 ^ w + b = b + a * 2 ^ (w - s) * 2 ^ s := by rw [Nat.add_comm, e, Nat.mul_assoc]
  rw [h1, Nat.add_mul_div_right _ _ hp]
  have h2 : a * 2 ^ (w - s) = a / 2 ^ s * 2 ^ w + a % 2 ^ s * 2 ^ (w - s) := by
    conv => lhs; rw [← Nat.div_add_mod a (2 ^ s)]
    rw [Nat.add_mul, e]
    congr 1
    rw [Nat.mul_comm (2 ^ s), Nat.mul_assoc, Nat.mul_comm (2 ^ s)]
  rw [h2]
  omega

private theorem nonneg_msb {w : Nat} {x : BitVec w} (h : 0 ≤ x.toInt) : x.msb = false := by
  cases hm : x.msb with
  | false => rfl
  | true => have := BitVec.toInt_neg_of_msb_true hm; omega

/-- **C119.** The logical right shift of a number of two signed halves divides it, for every amount, if no half is negative. -/
theorem c119_double_right_partial {w : Nat} (upper lower : BitVec w) (s : Nat) (hu : 0 ≤ upper.toInt) (hl : 0 ≤ lower.toInt) :
    double (doubleSafeRight upper lower s).1 (doubleSafeRight upper lower s).2 = double upper lower / 2 ^ s := by
  have mu := nonneg_msb hu
  have ml := nonneg_msb hl
  unfold double doubleSafeRight
  by_cases h2 : 2 * w ≤ s
  · rw [if_pos h2]
    have h3 : upper.toNat * 2 ^ w + lower.toNat < 2 ^ s := by
      have a := upper.isLt
      have b := lower.isLt
      have c : (upper.toNat + 1) * 2 ^ w ≤ 2 ^ w * 2 ^ w := Nat.mul_le_mul_right _ a
      rw [← Nat.pow_add, ← Nat.two_mul, Nat.succ_mul] at c
      have d : 2 ^ (2 * w) ≤ 2 ^ s := Nat.pow_le_pow_right (by decide) h2
      omega
    rw [Nat.div_eq_of_lt h3]
    simp
  · rw [if_neg h2]
    unfold doubleRight
    by_cases h0 : 0 < s
    · rw [if_pos h0]
      by_cases h1 : s < w
      · rw [if_pos h1]
        dsimp only
        rw [BitVec.sshiftRight_eq_of_msb_false mu, BitVec.sshiftRight_eq_of_msb_false ml, shift_double _ _ w s h1,
          BitVec.toNat_or, BitVec.toNat_ushiftRight, BitVec.toNat_ushiftRight, BitVec.toNat_shiftLeft, Nat.shiftRight_eq_div_pow,
          Nat.shiftRight_eq_div_pow]
        congr 1
        have e : 2 ^ w = 2 ^ (w - s) * 2 ^ s := by rw [← Nat.pow_add]; congr 1; omega
        have hm : upper.toNat <<< (w - s) % 2 ^ w = (upper.toNat % 2 ^ s) <<< (w - s) := by
          rw [Nat.shiftLeft_eq, Nat.shiftLeft_eq, e, Nat.mul_comm, Nat.mul_mod_mul_left, Nat.mul_comm]
        have hlt : lower.toNat / 2 ^ s < 2 ^ (w - s) := by
          rw [Nat.div_lt_iff_lt_mul (Nat.pow_pos (by decide)), ← e]; exact lower.isLt
        rw [hm, Nat.or_comm, ← Nat.shiftLeft_add_eq_or_of_lt hlt, Nat.shiftLeft_eq]
        omega
      · rw [if_neg h1]
        dsimp only
        rw [if_neg (by omega), BitVec.sshiftRight_eq_of_msb_false mu, BitVec.toNat_ushiftRight, Nat.shiftRight_eq_div_pow]
        have e : 2 ^ s = 2 ^ w * 2 ^ (s - w) := by rw [← Nat.pow_add]; congr 1; omega
        rw [e, ← Nat.div_div_eq_div_mul, Nat.add_comm (upper.toNat * 2 ^ w), Nat.add_mul_div_right _ _ (Nat.pow_pos (by decide)),
          Nat.div_eq_of_lt lower.isLt]
        simp
    · rw [if_neg h0]
      have : s = 0 := by omega
      subst this
      simp

/-- **C119 fails for two signed halves of which one is negative**: the sign of a half fills the bits that should be zero or come from
the other half. -/
theorem c119_double_right_fails :
    (∃ (upper lower : BitVec 64) (s : Nat), 0 ≤ upper.toInt ∧ s < 64 ∧
      double (doubleSafeRight upper lower s).1 (doubleSafeRight upper lower s).2 ≠ double upper lower / 2 ^ s) ∧
    ∀ (w : Nat) (upper lower : BitVec w) (s : Nat), w ≤ s → s < 2 * w → upper.toInt < 0 →
      double (doubleSafeRight upper lower s).1 (doubleSafeRight upper lower s).2 ≠ double upper lower / 2 ^ s := by
  refine ⟨⟨0, BitVec.ofInt 64 (-2), 1, by decide, by decide, by decide +kernel⟩, ?_⟩
  intro w upper lower s h1 h2 h3
  unfold double doubleSafeRight doubleRight
  have hw : 0 < w := by omega
  rw [if_neg (by omega), if_pos (by omega), if_neg (by omega), if_pos h3]
  dsimp only
  have a := upper.isLt
  have b := lower.isLt
  have c : (upper.toNat + 1) * 2 ^ w ≤ 2 ^ w * 2 ^ w := Nat.mul_le_mul_right _ a
  rw [Nat.succ_mul] at c
  have hp : 0 < 2 ^ s := Nat.pow_pos (by decide)
  have d : (upper.toNat * 2 ^ w + lower.toNat) / 2 ^ s < 2 ^ w := by
    rw [Nat.div_lt_iff_lt_mul hp]
    have : 2 ^ w * 2 ^ w ≤ 2 ^ w * 2 ^ s := Nat.mul_le_mul_left _ (Nat.pow_le_pow_right (by decide) h1)
    omega
  have e : (BitVec.allOnes w).toNat = 2 ^ w - 1 := BitVec.toNat_allOnes
  have f : 2 ≤ 2 ^ w := by
    have := Nat.pow_le_pow_right (n := 2) (by decide) hw
    simpa using this
  have g : 2 ^ w ≤ (2 ^ w - 1) * 2 ^ w := Nat.le_mul_of_pos_left _ (by omega)
  rw [e]
  omega

/-- Shifts of 16 bits by more than eight, and of a number of two halves. -/
example : logicalRight (0x8421#16) 10 = 0x21#16 ∧ mathRight true (0x8421#16) 10 = 0xffe1#16 ∧
    doubleSafeRight (0x1234#16) (0x5678#16) 20 = (0#16, 0x123#16) := by decide

end Verif.Shift
