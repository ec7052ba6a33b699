import Verif.Model.FloatPrint
/-! ## Printing floating point numbers: powers of ten and normalisation -/
set_option linter.unusedSimpArgs false
namespace Verif.FloatPrint

/-- A power of ten. -/
abbrev T (e : Int) : Rat := (10 : Rat) ^ e

theorem ten_ne : (10 : Rat) ≠ 0 := by decide

theorem T_add (a b : Int) : T (a + b) = T a * T b := Rat.zpow_add ten_ne a b

theorem T_pos (a : Int) : 0 < T a := Rat.zpow_pos (by decide)

theorem T_zero : T 0 = 1 := Rat.zpow_zero 10
theorem T_one : T 1 = 10 := Rat.zpow_one 10
theorem T_neg_one : T (-1) = 1 / 10 := by
  have h := T_add 1 (-1)
  have h0 : T (1 + -1) = 1 := T_zero
  have h1 : T 1 = 10 := T_one
  grind

theorem T_nat (n : Nat) : T (n : Int) = 10 ^ n := Rat.zpow_natCast 10 n

theorem T_mul_neg (a : Int) : T a * T (-a) = 1 := by
  rw [← T_add, Int.add_right_neg]; exact T_zero

theorem T_inv (n : Nat) : ((10 : Rat) ^ n)⁻¹ = T (-(n : Int)) := by
  rw [← T_nat, ← Rat.zpow_neg]

theorem one_le_pow (n : Nat) : (1 : Rat) ≤ 10 ^ n := by
  induction n with
  | zero => simp
  | succ n ih => rw [Rat.pow_succ]; grind

theorem T_one_le {a : Int} (h : 0 ≤ a) : 1 ≤ T a := by
  obtain ⟨n, rfl⟩ := Int.eq_ofNat_of_zero_le h
  rw [T_nat]; exact one_le_pow n

theorem T_mono {a b : Int} (h : a ≤ b) : T a ≤ T b := by
  have h1 : T b = T a * T (b - a) := by rw [← T_add]; congr 1; omega
  have h2 := T_one_le (show 0 ≤ b - a by omega)
  have h3 := T_pos a
  have := Rat.mul_le_mul_of_nonneg_left h2 (Rat.le_of_lt h3)
  rw [h1]; grind

theorem T_lt {a b : Int} (h : a < b) : T a < T b := by
  have h1 : T (a + 1) ≤ T b := T_mono (by omega)
  have h2 : T (a + 1) = T a * 10 := by rw [T_add, T_one]
  have h3 := T_pos a
  grind

theorem mul_lt {a b c : Rat} (h : a < b) (hc : 0 < c) : a * c < b * c := Rat.mul_lt_mul_of_pos_right h hc
theorem mul_le {a b c : Rat} (h : a ≤ b) (hc : 0 < c) : a * c ≤ b * c := Rat.mul_le_mul_of_nonneg_right h (Rat.le_of_lt hc)

/-! ### Normalisation in exact arithmetic -/

theorem reduce_id (s : Rat × Int) (n : Nat) (x : Rat) (hx : x = s.1 * T s.2) (h1 : 1 ≤ s.1) (h2 : s.1 < T (2 * n)) :
    x = (reduce id s n).1 * T (reduce id s n).2 ∧ 1 ≤ (reduce id s n).1 ∧ (reduce id s n).1 < T n := by
  rw [reduce]
  simp only [id]
  rw [T_inv, ← T_nat]
  split
  · rename_i h
    refine ⟨?_, ?_, ?_⟩
    · simp only
      have := T_mul_neg n
      rw [hx, T_add, Rat.mul_assoc, ← Rat.mul_assoc (T (-(n : Int))), Rat.mul_comm (T (-(n : Int))) (T s.2), Rat.mul_assoc (T s.2), Rat.mul_comm (T (-(n : Int))), this, Rat.mul_one]
    · simp only
      have h3 := mul_le h (T_pos (-(n : Int)))
      rw [T_mul_neg] at h3; exact h3
    · simp only
      have h3 := mul_lt h2 (T_pos (-(n : Int)))
      rw [← T_add] at h3
      have h4 : (2 * (n : Int) + -(n : Int)) = n := by omega
      rw [h4] at h3; exact h3
  · rename_i h
    exact ⟨hx, h1, by grind⟩

theorem increase_id (s : Rat × Int) (n : Nat) (x : Rat) (hx : x = s.1 * T s.2) (h1 : T (-(2 * n)) < s.1) (h2 : s.1 ≤ 10) :
    x = (increase id s n).1 * T (increase id s n).2 ∧ T (-n) < (increase id s n).1 ∧ (increase id s n).1 ≤ 10 := by
  rw [increase]
  simp only [id]
  rw [T_inv, ← T_nat]
  split
  · rename_i h
    refine ⟨?_, ?_, ?_⟩
    · simp only
      have h3 : T s.2 = T ((n + 1 : Nat) : Int) * T (s.2 - (n + 1)) := by rw [← T_add]; congr 1; omega
      rw [hx, h3]; grind
    · simp only
      have h3 := mul_lt h1 (T_pos ((n + 1 : Nat) : Int))
      rw [← T_add] at h3
      have h4 : T (-n) < T (-(2 * (n : Int)) + ((n + 1 : Nat) : Int)) := T_lt (by omega)
      grind
    · simp only
      have h3 := mul_le h (T_pos ((n + 1 : Nat) : Int))
      rw [← T_add] at h3
      have h4 : T (-(n : Int) + ((n + 1 : Nat) : Int)) = 10 := by rw [← T_one]; congr 1; omega
      grind
  · rename_i h
    exact ⟨hx, by grind, h2⟩

theorem increase_id_zero (s : Rat × Int) (x : Rat) (hx : x = s.1 * T s.2) (h1 : T (-1) < s.1) (h2 : s.1 ≤ 10) :
    x = (increase id s 0).1 * T (increase id s 0).2 ∧ 1 < (increase id s 0).1 ∧ (increase id s 0).1 ≤ 10 := by
  rw [increase]
  simp only [id]
  rw [T_inv, ← T_nat]
  have e1 : T (-((0 : Nat) : Int)) = 1 := T_zero
  have e2 : T ((0 + 1 : Nat) : Int) = 10 := T_one
  rw [e1, e2]
  split
  · rename_i h
    refine ⟨?_, ?_, ?_⟩
    · simp only
      have h3 : T s.2 = T 1 * T (s.2 - 1) := by rw [← T_add]; congr 1; omega
      rw [hx, h3, T_one]
      have : (((0 : Nat) : Int) + 1) = 1 := rfl
      rw [this]; grind
    · simp only
      rw [T_neg_one] at h1; grind
    · simp only; grind
  · rename_i h
    exact ⟨hx, by grind, h2⟩

theorem reduce_exp (rnd : Rat → Rat) (s : Rat × Int) (n : Nat) : s.2 ≤ (reduce rnd s n).2 ∧ (reduce rnd s n).2 ≤ s.2 + n := by
  rw [reduce]; split <;> (try simp only) <;> omega

theorem increase_exp (rnd : Rat → Rat) (s : Rat × Int) (n : Nat) : s.2 - (n + 1) ≤ (increase rnd s n).2 ∧ (increase rnd s n).2 ≤ s.2 := by
  rw [increase]; split <;> (try simp only) <;> omega

/-- The range of the numbers. -/
def width (wide : Bool) : Int := if wide then 512 else 64

theorem foldl_reduce_exp (rnd : Rat → Rat) : ∀ (l : List Nat) (s : Rat × Int), s.2 ≤ (l.foldl (reduce rnd) s).2 ∧ (l.foldl (reduce rnd) s).2 ≤ s.2 + l.sum
  | [], s => by simp
  | n :: l, s => by
    have h := foldl_reduce_exp rnd l (reduce rnd s n)
    have h1 := reduce_exp rnd s n
    simp only [List.foldl_cons, List.sum_cons]
    omega

theorem foldl_increase_exp (rnd : Rat → Rat) : ∀ (l : List Nat) (s : Rat × Int), s.2 - (l.sum + l.length : Nat) ≤ (l.foldl (increase rnd) s).2 ∧ (l.foldl (increase rnd) s).2 ≤ s.2
  | [], s => by simp
  | n :: l, s => by
    have h := foldl_increase_exp rnd l (increase rnd s n)
    have h1 := increase_exp rnd s n
    simp only [List.foldl_cons, List.sum_cons, List.length_cons]
    omega

/-- The exponent of a normalised number, in every arithmetic. -/
theorem normalise_exp (rnd : Rat → Rat) (wide : Bool) (x : Rat) : -521 ≤ (normalise rnd wide x).2 ∧ (normalise rnd wide x).2 ≤ 511 := by
  rw [normalise]
  split
  · split
    · have h := foldl_reduce_exp rnd ((if wide then [256, 128, 64] else []) ++ [32, 16, 8, 4, 2, 1]) (x, 0)
      have hs : ((if wide then [256, 128, 64] else []) ++ [32, 16, 8, 4, 2, 1]).sum ≤ 511 := by cases wide <;> decide
      simp only at h
      omega
    · have h := foldl_increase_exp rnd ((if wide then [256, 128, 64] else []) ++ [32, 16, 8, 4, 2, 1, 0]) (x, 0)
      have hs : ((if wide then [256, 128, 64] else []) ++ [32, 16, 8, 4, 2, 1, 0]).sum + ((if wide then [256, 128, 64] else []) ++ [32, 16, 8, 4, 2, 1, 0]).length ≤ 521 := by cases wide <;> decide
      simp only at h
      omega
  · simp

theorem foldl_reduce_id (x : Rat) : ∀ (k : Nat) (s : Rat × Int), x = s.1 * T s.2 → 1 ≤ s.1 → s.1 < T ((2 : Int) ^ k) →
    let l := ((List.range k).map (2 ^ ·)).reverse
    x = (l.foldl (reduce id) s).1 * T (l.foldl (reduce id) s).2 ∧ 1 ≤ (l.foldl (reduce id) s).1 ∧ (l.foldl (reduce id) s).1 < 10
  | 0, s, hx, h1, h2 => ⟨hx, h1, by have : T ((2 : Int) ^ 0) = 10 := T_one; simpa [this] using h2⟩
  | k + 1, s, hx, h1, h2 => by
    simp only [List.range_succ, List.map_append, List.map_cons, List.map_nil, List.reverse_append, List.reverse_cons, List.reverse_nil, List.nil_append, List.foldl_append, List.foldl_cons, List.foldl_nil, List.singleton_append]
    have e : (2 : Int) ^ (k + 1) = 2 * ((2 ^ k : Nat) : Int) := by rw [Int.pow_succ, Int.mul_comm]; simp
    rw [e] at h2
    obtain ⟨a, b, c⟩ := reduce_id s (2 ^ k) x hx h1 h2
    have := foldl_reduce_id x k (reduce id s (2 ^ k)) a b (by rw [show ((2 : Int) ^ k) = ((2 ^ k : Nat) : Int) by simp]; exact c)
    simpa using this

theorem foldl_increase_id (x : Rat) : ∀ (k : Nat) (s : Rat × Int), x = s.1 * T s.2 → T (-(2 : Int) ^ k) < s.1 → s.1 ≤ 10 →
    let l := ((List.range k).map (2 ^ ·)).reverse
    x = (l.foldl (increase id) s).1 * T (l.foldl (increase id) s).2 ∧ T (-1) < (l.foldl (increase id) s).1 ∧ (l.foldl (increase id) s).1 ≤ 10
  | 0, s, hx, h1, h2 => ⟨hx, by simpa using h1, h2⟩
  | k + 1, s, hx, h1, h2 => by
    simp only [List.range_succ, List.map_append, List.map_cons, List.map_nil, List.reverse_append, List.reverse_cons, List.reverse_nil, List.nil_append, List.foldl_append, List.foldl_cons, List.foldl_nil, List.singleton_append]
    have e : -(2 : Int) ^ (k + 1) = -(2 * ((2 ^ k : Nat) : Int)) := by rw [Int.pow_succ, Int.mul_comm]; simp
    rw [e] at h1
    obtain ⟨a, b, c⟩ := increase_id s (2 ^ k) x hx h1 h2
    have := foldl_increase_id x k (increase id s (2 ^ k)) a (by rw [show -((2 : Int) ^ k) = -((2 ^ k : Nat) : Int) by simp]; exact b) c
    simpa using this

/-- In exact arithmetic a number is normalised, up to powers of ten below one, which become ten. -/
theorem normalise_id (wide : Bool) (x : Rat) (h0 : 0 < x) (hlo : T (-width wide) < x) (hhi : x < T (width wide)) :
    x = (normalise id wide x).1 * T (normalise id wide x).2 ∧ 1 ≤ (normalise id wide x).1 ∧ (normalise id wide x).1 ≤ 10 ∧
      ((normalise id wide x).1 = 10 → (normalise id wide x).2 < 0) := by
  have hx : x = ((x, (0 : Int)) : Rat × Int).1 * T ((x, (0 : Int)) : Rat × Int).2 := by
    have : T (0 : Int) = 1 := T_zero
    simp only; rw [this, Rat.mul_one]
  by_cases h1 : x ≥ 1
  · have key : ∃ k : Nat, width wide = (2 : Int) ^ k ∧ ((if wide then [256, 128, 64] else []) ++ [32, 16, 8, 4, 2, 1]) = ((List.range k).map (2 ^ ·)).reverse := by
      cases wide
      · exact ⟨6, by decide, by decide⟩
      · exact ⟨9, by decide, by decide⟩
    obtain ⟨k, hk, hl⟩ := key
    have := foldl_reduce_id x k (x, 0) hx h1 (by rw [← hk]; exact hhi)
    rw [normalise, if_pos h0, if_pos h1, hl]
    simp only at this
    refine ⟨this.1, this.2.1, Rat.le_of_lt this.2.2, ?_⟩
    intro he
    rw [he] at this
    exact absurd this.2.2 (by decide)
  · have key : ∃ k : Nat, width wide = (2 : Int) ^ k ∧ ((if wide then [256, 128, 64] else []) ++ [32, 16, 8, 4, 2, 1, 0]) = ((List.range k).map (2 ^ ·)).reverse ++ [0] := by
      cases wide
      · exact ⟨6, by decide, by decide⟩
      · exact ⟨9, by decide, by decide⟩
    obtain ⟨k, hk, hl⟩ := key
    have h := foldl_increase_id x k (x, 0) hx (by rw [← hk]; exact hlo) (by simp only; grind)
    rw [normalise, if_pos h0, if_neg h1, hl, List.foldl_append]
    simp only [List.foldl_cons, List.foldl_nil]
    simp only at h
    generalize ((List.range k).map (2 ^ ·)).reverse.foldl (increase id) (x, 0) = s at h ⊢
    obtain ⟨a, b, c⟩ := increase_id_zero s x h.1 h.2.1 h.2.2
    refine ⟨a, Rat.le_of_lt b, c, ?_⟩
    intro he
    by_cases hn : (increase id s 0).2 < 0
    · exact hn
    · have := T_one_le (show 0 ≤ (increase id s 0).2 by omega)
      rw [he] at a
      have h2 : (10 : Rat) ≤ x := by rw [a]; grind
      exact absurd (Rat.le_trans (by decide : (1 : Rat) ≤ 10) h2) (by grind)

/-! ### Powers of ten by squaring -/

theorem power_id (r : Rat) : ∀ (bits n : Nat), n < 2 ^ bits → power id r bits n = r ^ n
  | 0, n, h => by
    have : n = 0 := by simpa using h
    subst this; simp [power]
  | bits + 1, n, h => by
    rw [power]
    split
    · rename_i h0; subst h0; simp
    · simp only [id]
      have h2 : n / 2 < 2 ^ bits := by rw [Nat.pow_succ] at h; omega
      rw [power_id r bits (n / 2) h2]
      have hp : ∀ a b : Nat, r ^ (a + b) = r ^ a * r ^ b := by
        intro a b
        induction b with
        | zero => simp [Rat.mul_one]
        | succ b ih => rw [← Nat.add_assoc, Rat.pow_succ, ih, Rat.pow_succ, Rat.mul_assoc]
      split
      · rename_i hm
        rw [← hp, ← Rat.pow_succ]; congr 1; omega
      · rw [← hp]; congr 1; omega

theorem fastPower_id (p : Int) (h0 : 0 ≤ p) (h1 : p < 16384) : fastPower id (-p) = T (-p) := by
  obtain ⟨n, rfl⟩ := Int.eq_ofNat_of_zero_le h0
  rw [fastPower]
  have hn : (-(n : Int)).natAbs = n := by omega
  split
  · simp only [id]
    rw [power_id _ _ _ (by omega), hn]
    have hinv : ∀ m : Nat, ((1 : Rat) / 10) ^ m = T (-(m : Int)) := by
      intro m
      induction m with
      | zero => simp only [Rat.pow_zero]; exact T_zero.symm
      | succ m ih =>
        rw [Rat.pow_succ, ih]
        have : (-((m + 1 : Nat) : Int)) = -(m : Int) + -1 := by omega
        rw [this, T_add, T_neg_one]
    exact hinv n
  · have : n = 0 := by omega
    subst this
    rw [power_id _ _ _ (by decide)]
    rfl

theorem roundUp_id (x : Rat) (p : Int) (h0 : 0 ≤ p) (h1 : p < 16384) : roundUp id x p = x + T (-p) * 5 := by
  rw [roundUp, fastPower_id p h0 h1]; rfl

end Verif.FloatPrint
