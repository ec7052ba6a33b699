import Verif.Proof.FloatNum
import Verif.Model.FloatInt
set_option linter.unusedSimpArgs false
set_option maxRecDepth 8000
namespace Verif.FloatNum
open Verif.Spec.FloatNum

/-- The formats and sizes of the code. -/
def Code (f : Fmt) (bits : Nat) : Prop := (f = f32 ∨ f = f64) ∧ (bits = 8 ∨ bits = 16 ∨ bits = 32 ∨ bits = 64)

def checkMax (f : Fmt) (n : Nat) : Bool :=
  match ofInt f (2 ^ n - 1) with
  | .fin c => decide ((2 ^ n - 1 : Int) * 2 ^ f.K ≤ c) && decide (c ≤ 2 ^ n * 2 ^ f.K)
  | _ => false

theorem ofInt_max (f : Fmt) (bits : Nat) (h : Code f bits) (s : Bool) :
    ∃ c, ofInt f (greatest bits s) = .fin c ∧ greatest bits s * 2 ^ f.K ≤ c ∧ c ≤ (greatest bits s + 1) * 2 ^ f.K := by
  have key : ∀ n, checkMax f n = true → ∃ c, ofInt f (2 ^ n - 1) = .fin c ∧ (2 ^ n - 1 : Int) * 2 ^ f.K ≤ c ∧
      c ≤ (2 ^ n - 1 + 1 : Int) * 2 ^ f.K := by
    intro n hn
    unfold checkMax at hn
    split at hn
    · rename_i c hc
      rw [Bool.and_eq_true, decide_eq_true_iff, decide_eq_true_iff] at hn
      refine ⟨c, hc, hn.1, ?_⟩
      rw [Int.sub_add_cancel]
      exact hn.2
    · cases hn
  obtain ⟨hf, hb⟩ := h
  have h32 : (checkMax f32 7 && checkMax f32 8 && checkMax f32 15 && checkMax f32 16 && checkMax f32 31 &&
    checkMax f32 32 && checkMax f32 63 && checkMax f32 64) = true := by decide +kernel
  have h64 : (checkMax f64 7 && checkMax f64 8 && checkMax f64 15 && checkMax f64 16 && checkMax f64 31 &&
    checkMax f64 32 && checkMax f64 63 && checkMax f64 64) = true := by decide +kernel
  simp only [Bool.and_eq_true] at h32 h64
  have k0 : checkMax f bits = true := by
    rcases hf with rfl | rfl <;> rcases hb with rfl | rfl | rfl | rfl <;> simp [h32, h64]
  have k1 : checkMax f (bits - 1) = true := by
    rcases hf with rfl | rfl <;> rcases hb with rfl | rfl | rfl | rfl <;> simp [h32, h64]
  cases s
  · exact key bits k0
  · exact key (bits - 1) k1

theorem isFloat_two_pow (f : Fmt) (n : Nat) (hp : 1 < f.p) (h : n + f.K < f.top) (neg : Bool) :
    IsFloat f.p f.top ((if neg then -2 ^ n else 2 ^ n) * 2 ^ f.K) := by
  have h1 : ((if neg then -2 ^ n else 2 ^ n : Int) * 2 ^ f.K).natAbs = 2 ^ (n + f.K) := by
    rw [natAbs_mul_pow, Nat.pow_add]
    congr 1
    cases neg
    · simp only [Bool.false_eq_true, if_false]; rw [Int.natAbs_pow]; rfl
    · simp only [if_true]; rw [Int.natAbs_neg, Int.natAbs_pow]; rfl
  refine ⟨⟨1, n + f.K, ?_, ?_⟩, ?_⟩
  · calc 1 < 2 ^ 1 := by omega
      _ ≤ 2 ^ f.p := Nat.pow_le_pow_right (by omega) (by omega)
  · rw [h1]; omega
  · rw [h1]; exact Nat.pow_lt_pow_right (by omega) h

theorem ofInt_min (f : Fmt) (bits : Nat) (h : Code f bits) (s : Bool) :
    ofInt f (least bits s) = .fin (least bits s * 2 ^ f.K) := by
  unfold ofInt
  apply round_exact
  unfold least
  cases s
  · simp only [Bool.false_eq_true, if_false, Int.zero_mul]
    exact ⟨⟨0, 0, pow_pos' _, by simp⟩, by simpa using pow_pos' f.top⟩
  · simp only [if_true]
    have := isFloat_two_pow f (bits - 1) (by rcases h.1 with rfl | rfl <;> decide)
      (by rcases h.1 with rfl | rfl <;> rcases h.2 with rfl | rfl | rfl | rfl <;> decide) true
    simpa using this

/-- `r` is the integer between `lo` and `hi` nearest to `x / U`, and of two of them the one farther from zero. -/
def NearestIn (lo hi U x r : Int) : Prop :=
  lo ≤ r ∧ r ≤ hi ∧ ∀ j, lo ≤ j → j ≤ hi →
    (x - r * U).natAbs ≤ (x - j * U).natAbs ∧ ((x - r * U).natAbs = (x - j * U).natAbs → j.natAbs ≤ r.natAbs)

theorem nearest_high (lo hi U x : Int) (hU : 0 < U) (hl : lo ≤ hi) (h : hi * U ≤ x) : NearestIn lo hi U x hi := by
  refine ⟨hl, Int.le_refl _, ?_⟩
  intro j h1 h2
  by_cases hj : j = hi
  · subst hj; exact ⟨Nat.le_refl _, fun _ => Nat.le_refl _⟩
  · have : (j + 1) * U ≤ hi * U := Int.mul_le_mul_of_nonneg_right (by omega) (by omega)
    rw [Int.add_mul, Int.one_mul] at this
    constructor <;> omega

theorem nearest_low (lo hi U x : Int) (hU : 0 < U) (hl : lo ≤ hi) (h : x ≤ lo * U) : NearestIn lo hi U x lo := by
  refine ⟨Int.le_refl _, hl, ?_⟩
  intro j h1 h2
  by_cases hj : j = lo
  · subst hj; exact ⟨Nat.le_refl _, fun _ => Nat.le_refl _⟩
  · have : (lo + 1) * U ≤ j * U := Int.mul_le_mul_of_nonneg_right (by omega) (by omega)
    rw [Int.add_mul, Int.one_mul] at this
    constructor <;> omega

theorem nearest_mid (lo hi U x t r : Int) (hU : 0 < U) (hx : x = t * U + r)
    (hr : (0 ≤ r ∧ r < U ∧ 0 ≤ t) ∨ (-U < r ∧ r ≤ 0 ∧ t ≤ 0)) (hlt : lo ≤ t) (hth : t ≤ hi) :
    NearestIn lo hi U x
      (if U ≤ 2 * r then (if t < hi then t + 1 else t) else if 2 * r ≤ -U then (if t > lo then t - 1 else t) else t) := by
  have key : ∀ d j : Int, (j ≤ t - 2 ∧ j * U ≤ t * U - 2 * U) ∨ (j = t - 1 ∧ j * U = t * U - U) ∨ (j = t ∧ j * U = t * U) ∨
      (j = t + 1 ∧ j * U = t * U + U) ∨ (t + 2 ≤ j ∧ t * U + 2 * U ≤ j * U) := by
    intro d j
    by_cases h1 : j ≤ t - 2
    · left
      have := Int.mul_le_mul_of_nonneg_right h1 (Int.le_of_lt hU)
      rw [Int.sub_mul] at this
      exact ⟨h1, this⟩
    · by_cases h2 : t + 2 ≤ j
      · right; right; right; right
        have := Int.mul_le_mul_of_nonneg_right h2 (Int.le_of_lt hU)
        rw [Int.add_mul] at this
        exact ⟨h2, this⟩
      · have h3 : j = t - 1 ∨ j = t ∨ j = t + 1 := by omega
        rcases h3 with rfl | rfl | rfl
        · right; left; rw [Int.sub_mul, Int.one_mul]; exact ⟨rfl, rfl⟩
        · right; right; left; exact ⟨rfl, rfl⟩
        · right; right; right; left; rw [Int.add_mul, Int.one_mul]; exact ⟨rfl, rfl⟩
  have e1 : (t + 1) * U = t * U + U := by rw [Int.add_mul, Int.one_mul]
  have e2 : (t - 1) * U = t * U - U := by rw [Int.sub_mul, Int.one_mul]
  generalize hR : (if U ≤ 2 * r then (if t < hi then t + 1 else t) else if 2 * r ≤ -U then (if t > lo then t - 1 else t) else t) = R
  have hR' : (R = t + 1 ∧ U ≤ 2 * r ∧ t < hi) ∨ (R = t ∧ U ≤ 2 * r ∧ t = hi) ∨ (R = t - 1 ∧ 2 * r ≤ -U ∧ lo < t) ∨
      (R = t ∧ 2 * r ≤ -U ∧ lo = t) ∨ (R = t ∧ 2 * r < U ∧ -U < 2 * r) := by
    subst hR
    split
    · split <;> omega
    · split
      · split <;> omega
      · omega
  refine ⟨by omega, by omega, ?_⟩
  intro j h1 h2
  have hj := key 0 j
  generalize j * U = J at *
  have hRU : (R = t + 1 ∧ R * U = t * U + U) ∨ (R = t ∧ R * U = t * U) ∨ (R = t - 1 ∧ R * U = t * U - U) := by
    rcases hR' with ⟨rfl, _⟩ | ⟨rfl, _⟩ | ⟨rfl, _⟩ | ⟨rfl, _⟩ | ⟨rfl, _⟩ <;> omega
  generalize R * U = RU at *
  generalize t * U = T at *
  constructor <;> omega

theorem floatToInteger_nearest (f : Fmt) (bits : Nat) (h : Code f bits) (s : Bool) (x : Int)
    (hx : IsFloat f.p f.top x) :
    ∃ r, floatToInteger f bits s (.fin x) = some r ∧ NearestIn (least bits s) (greatest bits s) (2 ^ f.K) x r := by
  have hU : (0 : Int) < 2 ^ f.K := Int.pow_pos (by omega)
  have hlh : least bits s ≤ greatest bits s := by
    rcases h.2 with rfl | rfl | rfl | rfl <;> cases s <;> decide
  have hl0 : least bits s ≤ 0 := by
    rcases h.2 with rfl | rfl | rfl | rfl <;> cases s <;> decide
  have hg0 : 0 ≤ greatest bits s := by
    rcases h.2 with rfl | rfl | rfl | rfl <;> cases s <;> decide
  unfold floatToInteger
  simp only
  have emax : (if s = true then (2 : Int) ^ (bits - 1) - 1 else 2 ^ bits - 1) = greatest bits s := rfl
  have emin : (if s = true then -(2 : Int) ^ (bits - 1) else 0) = least bits s := rfl
  rw [emax, emin]
  by_cases hp : (s || gt (.fin x) (.fin 0)) = true
  · rw [if_pos hp]
    obtain ⟨c, hc, hc1, hc2⟩ := ofInt_max f bits h s
    rw [hc, ofInt_min f bits h s]
    by_cases hge : c ≤ x
    · refine ⟨greatest bits s, by simp only [ge, hge, decide_true, if_true], ?_⟩
      exact nearest_high _ _ _ _ hU hlh (by omega)
    · by_cases hle : x ≤ least bits s * 2 ^ f.K
      · refine ⟨least bits s, by simp only [ge, le, hge, hle, decide_true, decide_false, Bool.false_eq_true, if_true, if_false], ?_⟩
        exact nearest_low _ _ _ _ hU hlh hle
      · simp only [ge, le, hge, hle, decide_false, Bool.false_eq_true, if_false, truncInt]
        have hdm := Int.mul_tdiv_add_tmod x (2 ^ f.K)
        have hcomm : (2 : Int) ^ f.K * x.tdiv (2 ^ f.K) = x.tdiv (2 ^ f.K) * 2 ^ f.K := Int.mul_comm _ _
        have hfl := isFloat_trunc f.p f.top f.K x hx
        have hr : (0 ≤ x.tmod (2 ^ f.K) ∧ x.tmod (2 ^ f.K) < 2 ^ f.K ∧ 0 ≤ x.tdiv (2 ^ f.K)) ∨
            (-2 ^ f.K < x.tmod (2 ^ f.K) ∧ x.tmod (2 ^ f.K) ≤ 0 ∧ x.tdiv (2 ^ f.K) ≤ 0) := by
          rcases Int.le_total 0 x with h0 | h0
          · left
            exact ⟨Int.tmod_nonneg _ h0, Int.tmod_lt_of_pos _ hU, Int.tdiv_nonneg h0 (by omega)⟩
          · right
            have h1 : x = -(-x) := by omega
            rw [h1, Int.neg_tmod, Int.neg_tdiv]
            have := Int.tmod_nonneg (2 ^ f.K) (show 0 ≤ -x by omega)
            have := Int.tmod_lt_of_pos (-x) hU
            have := Int.tdiv_nonneg (show 0 ≤ -x by omega) (show (0 : Int) ≤ 2 ^ f.K by omega)
            omega
        have hhalf : (2 : Int) ^ f.K = 2 * 2 ^ (f.K - 1) := by
          rw [show f.K = (f.K - 1) + 1 by rcases h.1 with rfl | rfl <;> decide, Int.pow_succ]
          simp only [Nat.add_sub_cancel]
          omega
        generalize ht : x.tdiv (2 ^ f.K) = t at *
        generalize hrr : x.tmod (2 ^ f.K) = r at *
        have hlt : least bits s ≤ t := by
          rcases Int.lt_or_le t (least bits s) with hlt | hle'
          · have h1 : (t + 1) * 2 ^ f.K ≤ least bits s * 2 ^ f.K :=
              Int.mul_le_mul_of_nonneg_right (by omega) (by omega)
            rw [Int.add_mul, Int.one_mul] at h1
            omega
          · exact hle'
        have hgt : t ≤ greatest bits s := by
          rcases Int.lt_or_le (greatest bits s) t with hlt' | hle'
          · have h1 : (greatest bits s + 1) * 2 ^ f.K ≤ t * 2 ^ f.K :=
              Int.mul_le_mul_of_nonneg_right (by omega) (by omega)
            omega
          · exact hle'
        rw [if_pos ⟨hlt, hgt⟩]
        have hoi : ofInt f t = .fin (t * 2 ^ f.K) := round_exact f _ hfl.1
        have hsub : sub f (.fin x) (ofInt f t) = .fin r := by
          rw [hoi]
          show round f (x - t * 2 ^ f.K) = .fin r
          rw [show x - t * 2 ^ f.K = r by omega]
          exact round_exact f _ hfl.2
        have key := nearest_mid (least bits s) (greatest bits s) (2 ^ f.K) x t r hU (by omega) hr hlt hgt
        refine ⟨_, ?_, key⟩
        simp only [hsub, half, Bool.false_eq_true, if_false, if_true]
        have c1 : (decide ((2 : Int) ^ (f.K - 1) ≤ r) = true) ↔ 2 ^ f.K ≤ 2 * r := by
          rw [decide_eq_true_iff]; omega
        have c2 : (decide (r ≤ -(2 : Int) ^ (f.K - 1)) = true) ↔ 2 * r ≤ -2 ^ f.K := by
          rw [decide_eq_true_iff]; omega
        by_cases d1 : (2 : Int) ^ f.K ≤ 2 * r
        · rw [if_pos (c1.2 d1), if_pos d1]
        · rw [if_neg (fun h => d1 (c1.1 h)), if_neg d1]
          by_cases d2 : 2 * r ≤ -(2 : Int) ^ f.K
          · rw [if_pos (c2.2 d2), if_pos d2]
          · rw [if_neg (fun h => d2 (c2.1 h)), if_neg d2]
  · rw [if_neg hp]
    have hs : s = false := by
      cases s
      · rfl
      · simp at hp
    subst hs
    have hx0 : x ≤ 0 := by
      simp only [Bool.false_or, gt, ge, Bool.not_eq_true, Bool.not_eq_false', decide_eq_true_iff] at hp
      exact hp
    refine ⟨0, rfl, ?_⟩
    have : least bits false = 0 := rfl
    rw [this] at hlh ⊢
    exact nearest_low _ _ _ _ hU hlh (by omega)

end Verif.FloatNum
