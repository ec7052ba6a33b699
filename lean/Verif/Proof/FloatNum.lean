import Verif.Model.FloatNum
import Verif.Spec.FloatNum
set_option linter.unusedSimpArgs false
namespace Verif.FloatNum
open Verif.Spec.FloatNum

theorem log2_lt_of {n k : Nat} (h : n < 2 ^ k) (hk : 0 < k) : Nat.log2 n < k := by
  by_cases h0 : n = 0
  · subst h0; simpa using hk
  · exact (Nat.log2_lt h0).2 h

theorem pow_pos' (n : Nat) : 0 < 2 ^ n := Nat.pow_pos (by omega)

theorem rneQ_exact (p m e : Nat) (hm : m < 2 ^ p) : rneQ p (m * 2 ^ e) 1 = m * 2 ^ e := by
  unfold rneQ
  simp only [Nat.div_one, Nat.one_mul]
  by_cases h0 : m = 0
  · subst h0
    have := pow_pos' (Nat.log2 (0 * 2 ^ e) + 1 - p)
    have h1 : ¬ (2 * (0 * 2 ^ e % 2 ^ (Nat.log2 (0 * 2 ^ e) + 1 - p)) > 2 ^ (Nat.log2 (0 * 2 ^ e) + 1 - p) ∨
        2 * (0 * 2 ^ e % 2 ^ (Nat.log2 (0 * 2 ^ e) + 1 - p)) = 2 ^ (Nat.log2 (0 * 2 ^ e) + 1 - p) ∧
        0 * 2 ^ e / 2 ^ (Nat.log2 (0 * 2 ^ e) + 1 - p) % 2 = 1) := by
      simp only [Nat.zero_mul, Nat.zero_mod, Nat.zero_div] at *
      omega
    rw [if_neg h1]
    simp
  · have hp : 0 < p := by
      rcases Nat.eq_zero_or_pos p with rfl | h
      · simp at hm; omega
      · exact h
    have hlt : m * 2 ^ e < 2 ^ (p + e) := by
      rw [Nat.pow_add]; exact Nat.mul_lt_mul_of_pos_right hm (pow_pos' e)
    have hl := log2_lt_of hlt (by omega)
    generalize he : Nat.log2 (m * 2 ^ e) + 1 - p = e0
    have hle : e0 ≤ e := by omega
    have hdvd : 2 ^ e0 ∣ m * 2 ^ e := Nat.dvd_trans (Nat.pow_dvd_pow 2 hle) (Nat.dvd_mul_left _ _)
    have hr := Nat.mod_eq_zero_of_dvd hdvd
    have := pow_pos' e0
    rw [if_neg (by rw [hr]; omega), Nat.div_mul_cancel hdvd]

/-- The parts of the definition of `rneQ`. -/
theorem rneQ_parts (p a b : Nat) (hp : 0 < p) (hb : 0 < b) :
    ∃ e q r, a = b * 2 ^ e * q + r ∧ r < b * 2 ^ e ∧ q < 2 ^ p ∧ (0 < e → 2 ^ (p - 1) ≤ q) ∧
      ((rneQ p a b = q * 2 ^ e ∧ 2 * r ≤ b * 2 ^ e) ∨ (rneQ p a b = (q + 1) * 2 ^ e ∧ b * 2 ^ e ≤ 2 * r)) := by
  refine ⟨Nat.log2 (a / b) + 1 - p, a / (b * 2 ^ (Nat.log2 (a / b) + 1 - p)),
    a % (b * 2 ^ (Nat.log2 (a / b) + 1 - p)), ?_, ?_, ?_, ?_, ?_⟩
  · exact (Nat.div_add_mod _ _).symm
  · exact Nat.mod_lt _ (Nat.mul_pos hb (pow_pos' _))
  · rw [← Nat.div_div_eq_div_mul]
    apply Nat.div_lt_of_lt_mul
    rw [← Nat.pow_add]
    have h1 : a / b < 2 ^ (Nat.log2 (a / b) + 1) := Nat.lt_log2_self
    exact Nat.lt_of_lt_of_le h1 (Nat.pow_le_pow_right (by omega) (by omega))
  · intro he
    rw [← Nat.div_div_eq_div_mul]
    have h0 : a / b ≠ 0 := by
      intro h0
      rw [h0] at he
      simp at he
      omega
    have h1 := Nat.log2_self_le h0
    rw [Nat.le_div_iff_mul_le (pow_pos' _), ← Nat.pow_add]
    exact Nat.le_trans (Nat.pow_le_pow_right (by omega) (by omega)) h1
  · unfold rneQ
    simp only
    split
    · right; refine ⟨rfl, ?_⟩; omega
    · left; refine ⟨rfl, ?_⟩; omega

theorem rneQ_nearest (p a b : Nat) (hp : 0 < p) (hb : 0 < b) (m f : Nat) (hm : m < 2 ^ p) :
    ((a : Int) - (b * rneQ p a b : Nat)).natAbs ≤ ((a : Int) - (b * (m * 2 ^ f) : Nat)).natAbs := by
  obtain ⟨e, q, r, h1, h2, h3, h4, h5⟩ := rneQ_parts p a b hp hb
  have hE := pow_pos' e
  have dich : m * 2 ^ f ≤ q * 2 ^ e ∨ (q + 1) * 2 ^ e ≤ m * 2 ^ f := by
    by_cases he : e = 0
    · subst he
      simp only [Nat.pow_zero, Nat.mul_one]; omega
    · have h4' := h4 (by omega)
      rcases Nat.lt_or_ge (q * 2 ^ e) (m * 2 ^ f) with hlt | hge
      · right
        have h6 : 2 ^ (p - 1) * 2 ^ e ≤ q * 2 ^ e := Nat.mul_le_mul_right _ h4'
        have h7 : m * 2 ^ f < 2 ^ p * 2 ^ f := Nat.mul_lt_mul_of_pos_right hm (pow_pos' f)
        rw [← Nat.pow_add] at h6 h7
        have h8 : 2 ^ (p - 1 + e) < 2 ^ (p + f) := by omega
        have h9 := (Nat.pow_lt_pow_iff_right (a := 2) (by omega)).1 h8
        have h10 : m * 2 ^ f = m * 2 ^ (f - e) * 2 ^ e := by
          rw [Nat.mul_assoc, ← Nat.pow_add, show f - e + e = f by omega]
        rw [h10] at hlt ⊢
        exact Nat.mul_le_mul_right _ (Nat.lt_of_mul_lt_mul_right hlt)
      · left; exact hge
  have k1 : b * (q * 2 ^ e) = b * 2 ^ e * q := by rw [Nat.mul_comm q, Nat.mul_assoc]
  have k2 : b * ((q + 1) * 2 ^ e) = b * 2 ^ e * q + b * 2 ^ e := by
    rw [Nat.mul_comm (q + 1), ← Nat.mul_assoc, Nat.mul_add, Nat.mul_one]
  have d1 : b * (m * 2 ^ f) ≤ b * 2 ^ e * q ∨ b * 2 ^ e * q + b * 2 ^ e ≤ b * (m * 2 ^ f) := by
    rcases dich with h | h
    · left; rw [← k1]; exact Nat.mul_le_mul_left _ h
    · right; rw [← k2]; exact Nat.mul_le_mul_left _ h
  rcases h5 with ⟨h5, h6⟩ | ⟨h5, h6⟩
  · rw [h5, k1]
    omega
  · rw [h5, k2]
    omega

theorem rneQ_float (p a b : Nat) (hp : 0 < p) (hb : 0 < b) : ∃ m e, m < 2 ^ p ∧ rneQ p a b = m * 2 ^ e := by
  obtain ⟨e, q, r, h1, h2, h3, h4, h5⟩ := rneQ_parts p a b hp hb
  rcases h5 with ⟨h5, h6⟩ | ⟨h5, h6⟩
  · exact ⟨q, e, h3, h5⟩
  · by_cases hq : q + 1 < 2 ^ p
    · exact ⟨q + 1, e, hq, h5⟩
    · refine ⟨2 ^ (p - 1), e + 1, Nat.pow_lt_pow_right (by omega) (by omega), ?_⟩
      rw [h5, show q + 1 = 2 ^ p by omega, ← Nat.pow_add, ← Nat.pow_add]
      congr 1; omega

theorem roundQ_exact (f : Fmt) (neg : Bool) (m e : Nat) (hm : m < 2 ^ f.p) (ht : m * 2 ^ e < 2 ^ f.top) :
    roundQ f neg (m * 2 ^ e) 1 = .fin (if neg then -((m * 2 ^ e : Nat) : Int) else ((m * 2 ^ e : Nat) : Int)) := by
  unfold roundQ
  simp only [rneQ_exact _ _ _ hm]
  rw [if_neg (by omega)]

theorem round_exact (f : Fmt) (x : Int) (h : IsFloat f.p f.top x) : round f x = .fin x := by
  obtain ⟨⟨m, e, h1, h2⟩, h3⟩ := h
  unfold round
  rw [h2] at h3 ⊢
  rw [roundQ_exact f _ m e h1 h3]
  by_cases h : x < 0
  · simp only [h, decide_true, if_true]
    congr 1; omega
  · simp only [h, decide_false, Bool.false_eq_true, if_false]
    congr 1; omega

theorem natAbs_mul_pow (t : Int) (K : Nat) : (t * 2 ^ K).natAbs = t.natAbs * 2 ^ K := by
  rw [Int.natAbs_mul, Int.natAbs_pow]; rfl

/-- The integral part of a number of a format is one. -/
theorem isFloat_trunc (p top K : Nat) (x : Int) (h : IsFloat p top x) :
    IsFloat p top (Int.tdiv x (2 ^ K) * 2 ^ K) ∧ IsFloat p top (Int.tmod x (2 ^ K)) := by
  obtain ⟨⟨m, e, h1, h2⟩, h3⟩ := h
  have hK := pow_pos' K
  have t1 : (Int.tdiv x (2 ^ K) * 2 ^ K).natAbs = x.natAbs / 2 ^ K * 2 ^ K := by
    rw [natAbs_mul_pow, Int.natAbs_tdiv, Int.natAbs_pow]; rfl
  have t2 : (Int.tmod x (2 ^ K)).natAbs = x.natAbs % 2 ^ K := by
    rw [Int.natAbs_tmod, Int.natAbs_pow]; rfl
  have b1 : x.natAbs / 2 ^ K * 2 ^ K ≤ x.natAbs := Nat.div_mul_le_self _ _
  have b2 : x.natAbs % 2 ^ K ≤ x.natAbs := Nat.mod_le _ _
  refine ⟨⟨?_, by rw [t1]; omega⟩, ⟨?_, by rw [t2]; omega⟩⟩
  · rw [t1, h2]
    by_cases he : K ≤ e
    · refine ⟨m, e, h1, ?_⟩
      exact Nat.div_mul_cancel (Nat.dvd_trans (Nat.pow_dvd_pow 2 he) (Nat.dvd_mul_left _ _))
    · refine ⟨m / 2 ^ (K - e), K, Nat.lt_of_le_of_lt (Nat.div_le_self _ _) h1, ?_⟩
      rw [show (2 : Nat) ^ K = 2 ^ (K - e) * 2 ^ e by rw [← Nat.pow_add, show K - e + e = K by omega],
        Nat.mul_div_mul_right _ _ (pow_pos' e)]
  · rw [t2, h2]
    by_cases he : K ≤ e
    · refine ⟨0, 0, pow_pos' p, ?_⟩
      rw [Nat.zero_mul]
      exact Nat.mod_eq_zero_of_dvd (Nat.dvd_trans (Nat.pow_dvd_pow 2 he) (Nat.dvd_mul_left _ _))
    · refine ⟨m % 2 ^ (K - e), e, Nat.lt_of_le_of_lt (Nat.mod_le _ _) h1, ?_⟩
      rw [show (2 : Nat) ^ K = 2 ^ (K - e) * 2 ^ e by rw [← Nat.pow_add, show K - e + e = K by omega],
        Nat.mul_mod_mul_right]

end Verif.FloatNum
