import Verif.Model.IntType
namespace Verif.IntType

theorem two_pow_pred {n : Nat} (h : 0 < n) : (2 : Int) ^ n = 2 * 2 ^ (n - 1) := by
  obtain ⟨m, rfl⟩ := Nat.exists_eq_succ_of_ne_zero (Nat.pos_iff_ne_zero.mp h)
  simp [Int.pow_succ]; omega

theorem two_pow_pos (n : Nat) : (0 : Int) < 2 ^ n := Int.pow_pos (by decide)

theorem two_pow_mono {m n : Nat} (h : m ≤ n) : (2 : Int) ^ m ≤ 2 ^ n := by
  have := Nat.pow_le_pow_right (n := 2) (by decide) h
  exact_mod_cast this

/-- Conversion does not change a value of the type. -/
theorem cast_of_has {t : Ty} (ht : 0 < t.bits) {x : Int} (h : t.has x) : t.cast x = x := by
  unfold Ty.cast
  unfold Ty.has Ty.min Ty.max at h
  have hp := two_pow_pred ht
  have h0 := two_pow_pos (t.bits - 1)
  cases hs : t.signed with
  | true =>
    simp only [hs, if_true] at h ⊢
    rw [Int.bmod_def]
    have : ((2 ^ t.bits : Nat) : Int) = 2 * 2 ^ (t.bits - 1) := by rw [← hp]; simp
    rw [this]
    generalize (2 : Int) ^ (t.bits - 1) = p at *
    rcases Int.lt_or_le x 0 with h1 | h1
    · have e : x % (2 * p) = x + 2 * p := by
        rw [← Int.add_emod_right]; exact Int.emod_eq_of_lt (by omega) (by omega)
      rw [e]; split <;> omega
    · have e : x % (2 * p) = x := Int.emod_eq_of_lt h1 (by omega)
      rw [e]; split <;> omega
  | false =>
    simp only [hs, Bool.false_eq_true, if_false] at h ⊢
    exact Int.emod_eq_of_lt h.1 (by omega)

/-- Conversion yields a value of the type. -/
theorem cast_has {t : Ty} (ht : 0 < t.bits) (x : Int) : t.has (t.cast x) := by
  unfold Ty.has Ty.min Ty.max Ty.cast
  have hp := two_pow_pred ht
  have h0 := two_pow_pos (t.bits - 1)
  cases hs : t.signed with
  | true =>
    simp only [if_true]
    rw [Int.bmod_def]
    have : ((2 ^ t.bits : Nat) : Int) = 2 * 2 ^ (t.bits - 1) := by rw [← hp]; simp
    rw [this]
    generalize (2 : Int) ^ (t.bits - 1) = p at *
    have h1 := Int.emod_nonneg x (b := 2 * p) (by omega)
    have h2 := Int.emod_lt_of_pos x (b := 2 * p) (by omega)
    split <;> omega
  | false =>
    simp only [Bool.false_eq_true, if_false]
    have h1 := Int.emod_nonneg x (b := 2 ^ t.bits) (by omega)
    have h2 := Int.emod_lt_of_pos x (b := 2 ^ t.bits) (by omega)
    omega

/-- Conversion is congruent modulo `2 ^ bits`. -/
theorem cast_congr (t : Ty) (x : Int) : ∃ k : Int, t.cast x = x + k * 2 ^ t.bits := by
  unfold Ty.cast
  split
  · rw [Int.bmod_def]
    have : ((2 ^ t.bits : Nat) : Int) = 2 ^ t.bits := by simp
    rw [this]
    have h := Int.emod_add_mul_ediv x (2 ^ t.bits)
    split
    · exact ⟨-(x / 2 ^ t.bits), by rw [Int.neg_mul, Int.mul_comm]; omega⟩
    · exact ⟨-(x / 2 ^ t.bits) - 1, by rw [Int.sub_mul, Int.neg_mul, Int.mul_comm]; omega⟩
  · have h := Int.emod_add_mul_ediv x (2 ^ t.bits)
    exact ⟨-(x / 2 ^ t.bits), by rw [Int.neg_mul, Int.mul_comm]; omega⟩

end Verif.IntType
