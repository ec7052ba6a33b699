import Verif.Model.SquareRoot

namespace Verif.Sqrt

theorem shr2 (n : Nat) : n >>> 2 = n / 4 := by rw [Nat.shiftRight_eq_div_pow]
theorem shr1 (n : Nat) : n >>> 1 = n / 2 := by rw [Nat.shiftRight_eq_div_pow]

/-- The scaling loop ends on zero (only for `x = 0`) or on the power of four below `x`. -/
theorem scaleBit_spec (k x : Nat) (hx : x < 4 ^ (k + 1)) :
    (scaleBit x (4 ^ k) = 0 ∧ x = 0) ∨
    ∃ j, j ≤ k ∧ scaleBit x (4 ^ k) = 4 ^ j ∧ 4 ^ j ≤ x ∧ x < 4 ^ (j + 1) := by
  induction k with
  | zero =>
    unfold scaleBit
    by_cases h : x = 0
    · subst h; left; simp [scaleBit]
    · right; refine ⟨0, by omega, ?_⟩; simp; simp at hx; omega
  | succ k ih =>
    unfold scaleBit
    by_cases h : 4 ^ (k + 1) > x
    · have e : (4 ^ (k + 1)) >>> 2 = 4 ^ k := by rw [shr2, Nat.pow_succ]; omega
      simp only [h, dite_true, e]
      rcases ih h with h | ⟨j, hj, h⟩
      · exact .inl h
      · exact .inr ⟨j, by omega, h⟩
    · right; refine ⟨k + 1, by omega, ?_⟩
      simp only [h, dite_false]; exact ⟨trivial, by omega, hx⟩

/-- Invariant of the digit loop: the part `R = q * 2^(k+1)` of the root found so far, the remainder
`tmp = x - R^2` and `res = 2 * R * 2^k`.  No intermediate value wraps. -/
theorem digits_spec (m P k : Nat) (hP : 2 * m ≤ P) (x q tmp : Nat) (hk : k + 1 ≤ m) (hx : x < 4 ^ m)
    (h1 : q * q * 4 ^ (k + 1) + tmp = x) (h2 : x < (q + 1) * (q + 1) * 4 ^ (k + 1)) :
    ∃ s, digits (2 * m) P tmp (q * 4 ^ (k + 1)) (4 ^ k) = s ∧ s * s ≤ x ∧ x < (s + 1) * (s + 1) := by
  have pP : (2 : Nat) ^ (2 * m) ≤ 2 ^ P := Nat.pow_le_pow_right (by omega) hP
  have p4 : (2 : Nat) ^ (2 * m) = 4 ^ m := by rw [Nat.pow_mul]
  induction k generalizing q tmp with
  | zero =>
    simp only [Nat.pow_zero, Nat.zero_add, Nat.pow_one] at *
    have hq : q * 4 + 1 < 4 ^ m := by
      have h3 : q * q * 4 < 4 ^ m := by omega
      -- q < 2^(m-1), hence 4q + 1 < 4^m
      obtain ⟨m', rfl⟩ : ∃ m', m = m' + 1 := ⟨m - 1, by omega⟩
      have h4 : q * q < 2 ^ m' * 2 ^ m' := by
        have : (4:Nat) ^ (m' + 1) = 4 * (2 ^ m' * 2 ^ m') := by
          rw [Nat.pow_succ, ← Nat.mul_pow, Nat.mul_comm]
        omega
      have h5 : q < 2 ^ m' := Nat.mul_self_lt_mul_self_iff.mp h4
      have h6 : (4:Nat) ^ (m' + 1) = 4 * (2 ^ m' * 2 ^ m') := by
        rw [Nat.pow_succ, ← Nat.mul_pow, Nat.mul_comm]
      have h7 : 2 ^ m' * 1 ≤ 2 ^ m' * 2 ^ m' := Nat.mul_le_mul_left _ (by omega)
      omega
    rw [digits]
    simp only [show ¬ (1 = 0) by omega, dite_false]
    rw [Nat.mod_eq_of_lt (by omega : q * 4 + 1 < 2 ^ P)]
    have e2 : (1 : Nat) >>> 2 = 0 := by decide
    have e1 : (q * 4) >>> 1 = 2 * q := by rw [shr1]; omega
    split
    · rename_i h
      rw [e2, e1, Nat.mod_eq_of_lt (by omega : 2 * q + 1 < 2 ^ (2 * m)), digits]
      simp only [dite_true]
      refine ⟨_, rfl, ?_, ?_⟩
      · have : (2 * q + 1) * (2 * q + 1) = q * q * 4 + (q * 4 + 1) := by grind
        omega
      · have : (2 * q + 1 + 1) * (2 * q + 1 + 1) = (q + 1) * (q + 1) * 4 := by grind
        omega
    · rename_i h
      rw [e2, e1, digits]
      simp only [dite_true]
      refine ⟨_, rfl, ?_, ?_⟩
      · have : (2 * q) * (2 * q) = q * q * 4 := by grind
        omega
      · have : (2 * q + 1) * (2 * q + 1) = q * q * 4 + (q * 4 + 1) := by grind
        omega
  | succ k ih =>
    have hB : 0 < 4 ^ k := Nat.pow_pos (by omega)
    have hq : q * 4 ^ (k + 1 + 1) + 4 ^ (k + 1) < 4 ^ m := by
      obtain ⟨j, rfl⟩ : ∃ j, m = j + (k + 1 + 1) := ⟨m - (k + 2), by omega⟩
      have h4 : q * q < 2 ^ j * 2 ^ j := by
        have : (4:Nat) ^ (j + (k + 1 + 1)) = (2 ^ j * 2 ^ j) * 4 ^ (k + 1 + 1) := by
          rw [Nat.pow_add, ← Nat.mul_pow]
        exact Nat.lt_of_mul_lt_mul_right (a := 4 ^ (k + 1 + 1)) (by omega)
      have h5 : q + 1 ≤ 2 ^ j := Nat.mul_self_lt_mul_self_iff.mp h4
      have h6 : (q + 1) * 4 ^ (k + 1 + 1) ≤ 4 ^ j * 4 ^ (k + 1 + 1) :=
        Nat.mul_le_mul_right _ (Nat.le_trans h5 (Nat.pow_le_pow_left (by omega) j))
      rw [Nat.pow_add 4 j]
      have h7 : (q + 1) * 4 ^ (k + 1 + 1) = q * 4 ^ (k + 1 + 1) + 4 * 4 ^ (k + 1) := by
        rw [Nat.add_mul, Nat.pow_succ 4 (k + 1)]; omega
      have : 0 < 4 ^ (k + 1) := Nat.pow_pos (by omega)
      omega
    rw [digits]
    have hne : ¬ (4 ^ (k + 1) = 0) := by have : 0 < 4 ^ (k + 1) := Nat.pow_pos (by omega); omega
    simp only [hne, dite_false]
    rw [Nat.mod_eq_of_lt (by omega : q * 4 ^ (k + 1 + 1) + 4 ^ (k + 1) < 2 ^ P)]
    have e2 : (4 ^ (k + 1)) >>> 2 = 4 ^ k := by rw [shr2, Nat.pow_succ]; omega
    have e1 : (q * 4 ^ (k + 1 + 1)) >>> 1 = 2 * q * 4 ^ (k + 1) := by
      have : q * 4 ^ (k + 1 + 1) = 2 * (2 * q * 4 ^ (k + 1)) := by
        rw [Nat.pow_succ 4 (k + 1)]; grind
      rw [shr1]; omega
    have sq0 : (2 * q) * (2 * q) * 4 ^ (k + 1) = q * q * 4 ^ (k + 1 + 1) := by
      rw [Nat.pow_succ 4 (k + 1)]; grind
    have sq1 : (2 * q + 1) * (2 * q + 1) * 4 ^ (k + 1) =
        q * q * 4 ^ (k + 1 + 1) + (q * 4 ^ (k + 1 + 1) + 4 ^ (k + 1)) := by
      rw [Nat.pow_succ 4 (k + 1)]; grind
    have sq2 : (2 * q + 1 + 1) * (2 * q + 1 + 1) * 4 ^ (k + 1) = (q + 1) * (q + 1) * 4 ^ (k + 1 + 1) := by
      rw [Nat.pow_succ 4 (k + 1)]; grind
    split
    · rename_i h
      have e3 : 2 * q * 4 ^ (k + 1) + 4 ^ (k + 1) = (2 * q + 1) * 4 ^ (k + 1) := by
        rw [Nat.add_mul, Nat.one_mul]
      have e4 : (2 * q + 1) * 4 ^ (k + 1) < 2 ^ (2 * m) := by
        have : q * 4 ^ (k + 1 + 1) = 2 * (2 * q * 4 ^ (k + 1)) := by
          rw [Nat.pow_succ 4 (k + 1)]; grind
        omega
      rw [e2, e1, e3, Nat.mod_eq_of_lt e4, Nat.mod_eq_of_lt (by omega)]
      exact ih (2 * q + 1) (tmp - (q * 4 ^ (k + 1 + 1) + 4 ^ (k + 1))) (by omega) (by omega) (by omega)
    · rename_i h
      rw [e2, e1]
      exact ih (2 * q) tmp (by omega) (by omega) (by omega)

theorem squareRootU_spec (m P x : Nat) (hm : 1 ≤ m) (hP : 2 * m ≤ P) (hx : x < 2 ^ (2 * m)) :
    squareRootU m P x * squareRootU m P x ≤ x ∧
      x < (squareRootU m P x + 1) * (squareRootU m P x + 1) := by
  have p4 : (2 : Nat) ^ (2 * m) = 4 ^ m := by rw [Nat.pow_mul]
  have pb : (2 : Nat) ^ (2 * m - 2) = 4 ^ (m - 1) := by
    rw [show 2 * m - 2 = 2 * (m - 1) by omega, Nat.pow_mul]
  unfold squareRootU
  rw [pb]
  rcases scaleBit_spec (m - 1) x (by rw [Nat.sub_add_cancel hm]; omega) with ⟨h, rfl⟩ | ⟨j, hj, h, hl, hu⟩
  · rw [h, digits]; simp
  · rw [h]
    obtain ⟨s, hs, h1, h2⟩ := digits_spec m P j hP x 0 x (by omega) (by omega) (by simp) (by simpa using hu)
    simp only [Nat.zero_mul] at hs
    rw [hs]; exact ⟨h1, h2⟩

end Verif.Sqrt
