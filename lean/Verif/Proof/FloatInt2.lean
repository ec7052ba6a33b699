import Verif.Proof.FloatInt
import Verif.Proof.BitConvert3
set_option linter.unusedSimpArgs false
set_option maxRecDepth 8000
namespace Verif.FloatNum
open Verif.Spec.FloatNum
open Verif.BitConvert

theorem roundQ_float (f : Fmt) (neg : Bool) (a b : Nat) (hp : 0 < f.p) (hb : 0 < b) (y : Int)
    (h : roundQ f neg a b = .fin y) : IsFloat f.p f.top y := by
  unfold roundQ at h
  simp only at h
  split at h
  · cases h
  · rename_i hlt
    obtain ⟨m, e, h1, h2⟩ := rneQ_float f.p a b hp hb
    have hy : y.natAbs = rneQ f.p a b := by
      injection h with h
      rw [← h]; cases neg <;> simp
    exact ⟨⟨m, e, h1, by rw [hy, h2]⟩, by rw [hy]; omega⟩

theorem roundQ_nearest (f : Fmt) (neg : Bool) (a b : Nat) (hp : 0 < f.p) (hb : 0 < b) (y : Int)
    (h : roundQ f neg a b = .fin y) (z : Int) (hz : ∃ m e, m < 2 ^ f.p ∧ z.natAbs = m * 2 ^ e) :
    ((if neg then -(a : Int) else a) - b * y).natAbs ≤ ((if neg then -(a : Int) else a) - b * z).natAbs := by
  unfold roundQ at h
  simp only at h
  split at h
  · cases h
  · obtain ⟨m, e, h1, h2⟩ := hz
    have n1 := rneQ_nearest f.p a b hp hb m e h1
    have n0 := rneQ_nearest f.p a b hp hb 0 0 (pow_pos' _)
    rw [← h2] at n1
    simp only [Nat.zero_mul, Nat.mul_zero] at n0
    generalize rneQ f.p a b = R at *
    have hcast : ∀ n : Nat, ((b * n : Nat) : Int) = (b : Int) * n := by intro n; push_cast; rfl
    rw [hcast, hcast] at n1
    rw [hcast] at n0
    injection h with h
    subst h
    cases neg with
    | false =>
      simp only [Bool.false_eq_true, if_false]
      rcases Int.le_total 0 z with h0 | h0
      · rw [show ((z.natAbs : Nat) : Int) = z by omega] at n1
        exact n1
      · have : (b : Int) * z ≤ 0 := Int.mul_nonpos_of_nonneg_of_nonpos (by omega) h0
        omega
    | true =>
      simp only [if_true]
      rw [Int.mul_neg]
      rcases Int.le_total 0 z with h0 | h0
      · have : 0 ≤ (b : Int) * z := Int.mul_nonneg (by omega) h0
        omega
      · rw [show ((z.natAbs : Nat) : Int) = -z by omega, Int.mul_neg] at n1
        omega

theorem maxFloat_nat (f : Fmt) : maxFloat f = (((2 ^ f.p - 1) * 2 ^ (f.top - f.p) : Nat) : Int) := by
  unfold maxFloat
  have : 1 ≤ 2 ^ f.p := pow_pos' f.p
  push_cast [this]
  rfl

theorem float_le_max (f : Fmt) (hpt : f.p ≤ f.top) (m e : Nat) (hm : m < 2 ^ f.p) (h : m * 2 ^ e < 2 ^ f.top) :
    m * 2 ^ e ≤ (2 ^ f.p - 1) * 2 ^ (f.top - f.p) := by
  by_cases he : e ≤ f.top - f.p
  · exact Nat.mul_le_mul (by omega) (Nat.pow_le_pow_right (by omega) he)
  · have h1 : m * 2 ^ e = m * 2 ^ (e - (f.top - f.p)) * 2 ^ (f.top - f.p) := by
      rw [Nat.mul_assoc, ← Nat.pow_add, show e - (f.top - f.p) + (f.top - f.p) = e by omega]
    rw [h1] at h ⊢
    apply Nat.mul_le_mul_right
    have h2 : 2 ^ f.top = 2 ^ f.p * 2 ^ (f.top - f.p) := by
      rw [← Nat.pow_add, show f.p + (f.top - f.p) = f.top by omega]
    rw [h2] at h
    have := Nat.lt_of_mul_lt_mul_right h
    omega

theorem max_lt (f : Fmt) (hpt : f.p ≤ f.top) : (2 ^ f.p - 1) * 2 ^ (f.top - f.p) < 2 ^ f.top := by
  have h2 : 2 ^ f.top = 2 ^ f.p * 2 ^ (f.top - f.p) := by
    rw [← Nat.pow_add, show f.p + (f.top - f.p) = f.top by omega]
  rw [h2]
  exact Nat.mul_lt_mul_of_pos_right (by have := pow_pos' f.p; omega) (pow_pos' _)

/-- When the result overflows, the greatest number is the nearest finite one. -/
theorem roundQ_inf (f : Fmt) (neg n' : Bool) (a b : Nat) (hp : 0 < f.p) (hpt : f.p ≤ f.top) (hb : 0 < b)
    (h : roundQ f neg a b = .inf n') (z : Int) (hz : IsFloat f.p f.top z) :
    ((if neg then -(a : Int) else a) - b * (if neg then -maxFloat f else maxFloat f)).natAbs
      ≤ ((if neg then -(a : Int) else a) - b * z).natAbs := by
  unfold roundQ at h
  simp only at h
  split at h
  · rename_i hR
    obtain ⟨⟨m, e, h1, h2⟩, h3⟩ := hz
    have hM := rneQ_nearest f.p a b hp hb (2 ^ f.p - 1) (f.top - f.p) (by have := pow_pos' f.p; omega)
    have hlt := max_lt f hpt
    have hle := float_le_max f hpt m e h1 (by rw [← h2]; exact h3)
    rw [← h2] at hle
    rw [maxFloat_nat]
    generalize (2 ^ f.p - 1) * 2 ^ (f.top - f.p) = M at *
    generalize rneQ f.p a b = R at *
    have hbR : b * (M + 1) ≤ b * R := Nat.mul_le_mul_left _ (by omega)
    have hbz : b * z.natAbs ≤ b * M := Nat.mul_le_mul_left _ hle
    rw [Nat.mul_add, Nat.mul_one] at hbR
    have haM : b * M ≤ a := by omega
    have hbz' : (b : Int) * z ≤ b * M ∧ -((b : Int) * M) ≤ b * z := by
      have h5 : ((b * z.natAbs : Nat) : Int) = (b * z).natAbs := by rw [Int.natAbs_mul]; rfl
      have h6 : ((b * M : Nat) : Int) = (b : Int) * M := by push_cast; rfl
      omega
    have h6 : ((b * M : Nat) : Int) = (b : Int) * M := by push_cast; rfl
    cases neg with
    | false => simp only [Bool.false_eq_true, if_false]; omega
    | true => simp only [if_true]; rw [Int.mul_neg]; omega
  · cases h

/-! ## Integers in bytes -/

theorem intBytes_length (k : Nat) (i : Int) : (intBytes k i).length = k := leBytes_length _ _

theorem decode_mod (n : Nat) (hn : 0 < n) (s : Bool) (i : Int) (h1 : least n s ≤ i) (h2 : i ≤ greatest n s) :
    decode n s ((i % 2 ^ n).toNat % 2 ^ n) = i := by
  have hp := pow_split n hn
  have hpos := pow_pos' (n - 1)
  have hb : (s = false ∧ 0 ≤ i ∧ i < (2 ^ n : Nat)) ∨ (s = true ∧ -((2 ^ (n - 1) : Nat) : Int) ≤ i ∧ i < (2 ^ (n - 1) : Nat)) := by
    unfold least at h1
    unfold greatest at h2
    rw [ipow n, ipow (n - 1)] at h2
    rw [ipow (n - 1)] at h1
    cases s with
    | false => left; simp only [Bool.false_eq_true, if_false] at h1 h2; exact ⟨rfl, h1, by omega⟩
    | true => right; simp only [if_true] at h1 h2; exact ⟨rfl, h1, by omega⟩
  have hm : (i % 2 ^ n).toNat = if i < 0 then (i + (2 ^ n : Nat)).toNat else i.toNat := by
    rw [ipow n]
    split
    · rename_i h0
      congr 1
      have : i % ((2 ^ n : Nat) : Int) = (i + (2 ^ n : Nat)) % ((2 ^ n : Nat) : Int) := by simp
      rw [this]
      exact Int.emod_eq_of_lt (by omega) (by omega)
    · congr 1
      exact Int.emod_eq_of_lt (by omega) (by omega)
  have hlt : (i % 2 ^ n).toNat < 2 ^ n := by
    rw [hm]
    split <;> omega
  rw [Nat.mod_eq_of_lt hlt, hm]
  unfold decode
  rw [ipow n]
  rcases hb with ⟨rfl, hb⟩ | ⟨rfl, hb⟩
  · simp only [Bool.false_eq_true, if_false, false_and]
    rw [if_neg (by omega)]
    omega
  · simp only [true_and]
    by_cases h0 : i < 0
    · rw [if_pos h0, if_pos (by omega)]; omega
    · rw [if_neg h0, if_neg (by omega)]; omega

theorem write_int (mem : Mem) (p k : Nat) (hk : 0 < k) (s : Bool) (i : Int) (hm : p + k ≤ mem.length)
    (h1 : least (8 * k) s ≤ i) (h2 : i ≤ greatest (8 * k) s) :
    ∃ mem', writeBytes mem p (intBytes k i) = some mem' ∧ mem'.length = mem.length ∧
      Spec.BitConvert.value mem' (8 * p) (8 * k) s = i ∧
      ∀ j, j < 8 * p ∨ 8 * p + 8 * k ≤ j → Spec.BitConvert.bit mem' j = Spec.BitConvert.bit mem j := by
  have hw := fun j => bit_write mem (intBytes k i) p j (by rw [intBytes_length]; exact hm)
  rw [intBytes_length] at hw
  refine ⟨mem.take p ++ intBytes k i ++ mem.drop (p + k), ?_, ?_, ?_, ?_⟩
  · unfold writeBytes
    rw [intBytes_length, if_pos hm]
  · simp only [List.length_append, List.length_take, List.length_drop, intBytes_length]; omega
  · rw [value_decode _ _ _ (by omega), bits_of_bit _ _ _ (i % 2 ^ (8 * k)).toNat]
    · exact decode_mod _ (by omega) s i h1 h2
    · intro j hj1 hj2
      rw [hw, if_pos (by omega)]
      exact leBytes_bit _ _ _ (by omega)
  · intro j hj
    rw [hw, if_neg (by omega)]

theorem read_int (mem : Mem) (p k : Nat) (hk : 0 < k) (s : Bool) (hm : p + k ≤ mem.length) :
    ∃ bs, readBytes mem p k k = some bs ∧ bytesInt bs s = Spec.BitConvert.value mem (8 * p) (8 * k) s := by
  refine ⟨(mem.drop p).take k, ?_, ?_⟩
  · unfold readBytes
    rw [if_pos ⟨hm, Nat.le_refl _⟩]
  · have hlen : ((mem.drop p).take k).length = k := by
      rw [List.length_take, List.length_drop]; omega
    have hb : leNat ((mem.drop p).take k) = Spec.BitConvert.bits mem (8 * p) (8 * k) := by
      apply Nat.eq_of_testBit_eq
      intro i
      rw [leNat_testBit, bit_slice _ _ _ _ hm, bits_testBit]
    unfold bytesInt
    rw [value_decode _ _ _ (by omega), hlen, hb]
    unfold decode
    rfl

theorem value_range (mem : Mem) (a n : Nat) (hn : 0 < n) (s : Bool) :
    least n s ≤ Spec.BitConvert.value mem a n s ∧ Spec.BitConvert.value mem a n s ≤ greatest n s := by
  rw [value_decode _ _ _ hn]
  have hlt := bits_lt mem a n
  have hp := pow_split n hn
  unfold decode least greatest
  rw [ipow n, ipow (n - 1)]
  cases s with
  | false => simp only [Bool.false_eq_true, if_false, false_and]; omega
  | true =>
    simp only [if_true, true_and]
    split <;> omega

theorem chosen_whole (bits : Nat) (h : bits = 8 ∨ bits = 16 ∨ bits = 32 ∨ bits = 64) (d : Field) (hd : d.bits = bits)
    (hs : d.shift = 0) : ∃ k, 0 < k ∧ 8 * k = bits ∧ chosenSize (bitSize d) = some k := by
  unfold bitSize
  rw [hd, hs]
  rcases h with rfl | rfl | rfl | rfl
  · exact ⟨1, by omega, by omega, by decide⟩
  · exact ⟨2, by omega, by omega, by decide⟩
  · exact ⟨4, by omega, by omega, by decide⟩
  · exact ⟨8, by omega, by omega, by decide⟩

theorem isInf_fin (f : Fmt) (x : Int) : isInf f (.fin x) = false := by
  unfold isInf sub
  simp only [Int.sub_self]
  have : round f 0 = .fin 0 := round_exact f 0 ⟨⟨0, 0, pow_pos' _, by simp⟩, by simpa using pow_pos' f.top⟩
  rw [this]
  rfl

/-- An integer of up to 64 bits to a number. -/
theorem ofInt_fin (f : Fmt) (bits : Nat) (h : Code f bits) (s : Bool) (i : Int) (h1 : least bits s ≤ i)
    (h2 : i ≤ greatest bits s) : ∃ y, ofInt f i = .fin y := by
  have hp : 0 < f.p := by rcases h.1 with rfl | rfl <;> decide
  unfold ofInt round roundQ
  simp only
  have hi : i.natAbs ≤ 2 ^ 64 := by
    rcases h.2 with rfl | rfl | rfl | rfl <;> cases s <;> simp [least, greatest] at h1 h2 <;> omega
  have hle : (i * 2 ^ f.K).natAbs ≤ 1 * 2 ^ (64 + f.K) := by
    rw [natAbs_mul_pow, Nat.pow_add, Nat.one_mul]
    exact Nat.mul_le_mul_right _ hi
  have hn := rneQ_nearest f.p (i * 2 ^ f.K).natAbs 1 hp (by omega) 1 (64 + f.K) (by rcases h.1 with rfl | rfl <;> decide)
  have hlt : 2 ^ (64 + f.K) * 2 < 2 ^ f.top := by
    rw [← Nat.pow_succ]
    exact Nat.pow_lt_pow_right (by omega) (by rcases h.1 with rfl | rfl <;> decide)
  rw [if_neg]
  · exact ⟨_, rfl⟩
  · intro h3
    generalize rneQ f.p (i * 2 ^ f.K).natAbs 1 = R at *
    generalize (2 : Nat) ^ (64 + f.K) = A at *
    generalize (i * 2 ^ f.K).natAbs = B at *
    simp only [Nat.one_mul] at hn hle
    omega

theorem roundQ_scale (f : Fmt) (n : Bool) (a b c : Nat) (hc : 0 < c) : roundQ f n (a * c) (b * c) = roundQ f n a b := by
  unfold roundQ rneQ
  simp only
  have h1 : a * c / (b * c) = a / b := Nat.mul_div_mul_right _ _ hc
  rw [h1]
  generalize Nat.log2 (a / b) + 1 - f.p = e
  have h2 : b * c * 2 ^ e = b * 2 ^ e * c := by rw [Nat.mul_assoc, Nat.mul_comm c, ← Nat.mul_assoc]
  rw [h2, Nat.mul_div_mul_right _ _ hc, Nat.mul_mod_mul_right]
  have h3 : (2 * (a % (b * 2 ^ e) * c) > b * 2 ^ e * c) ↔ (2 * (a % (b * 2 ^ e)) > b * 2 ^ e) := by
    rw [← Nat.mul_assoc]
    exact Nat.mul_lt_mul_right hc
  have h4 : (2 * (a % (b * 2 ^ e) * c) = b * 2 ^ e * c) ↔ (2 * (a % (b * 2 ^ e)) = b * 2 ^ e) := by
    rw [← Nat.mul_assoc]
    exact Nat.mul_left_inj (by omega)
  simp only [h3, h4]

theorem mul_pow_neg (x : Int) (n : Nat) : (x * 2 ^ n < 0) ↔ x < 0 := by
  have hpos : (0 : Int) < 2 ^ n := Int.pow_pos (by omega)
  constructor
  · intro h
    rcases Int.lt_or_le x 0 with h' | h'
    · exact h'
    · exact absurd (Int.mul_nonneg h' (Int.le_of_lt hpos)) (by omega)
  · intro h; exact Int.mul_neg_of_neg_of_pos h hpos

theorem cast_exact (f1 f2 : Fmt) (x y : Int) (hy : IsFloat f2.p f2.top y) (h : y * 2 ^ f1.K = x * 2 ^ f2.K) :
    castFloat f1 f2 (.fin x) = .fin y := by
  unfold castFloat
  have h1 : x.natAbs * 2 ^ f2.K = y.natAbs * 2 ^ f1.K := by rw [← natAbs_mul_pow, ← natAbs_mul_pow, h]
  have h2 : (x < 0) ↔ (y < 0) := by rw [← mul_pow_neg x f2.K, ← h, mul_pow_neg]
  simp only
  rw [h1]
  have h3 := roundQ_scale f2 (decide (x < 0)) y.natAbs 1 (2 ^ f1.K) (pow_pos' _)
  rw [Nat.one_mul] at h3
  rw [h3]
  simp only [h2]
  exact round_exact f2 y hy

theorem isFloat_scale (p t1 t2 k : Nat) (x : Int) (h : IsFloat p t1 x) (p2 : Nat) (hp : p ≤ p2) (ht : t1 + k ≤ t2) :
    IsFloat p2 t2 (x * 2 ^ k) := by
  obtain ⟨⟨m, e, h1, h2⟩, h3⟩ := h
  refine ⟨⟨m, e + k, Nat.lt_of_lt_of_le h1 (Nat.pow_le_pow_right (by omega) hp), ?_⟩, ?_⟩
  · rw [natAbs_mul_pow, h2, Nat.pow_add, Nat.mul_assoc]
  · rw [natAbs_mul_pow]
    refine Nat.lt_of_lt_of_le (Nat.mul_lt_mul_of_pos_right h3 (pow_pos' k)) ?_
    rw [← Nat.pow_add]
    exact Nat.pow_le_pow_right (by omega) ht

theorem floatToFloat_fin (f1 f2 : Fmt) (narrow : Bool) (x y : Int) (h : castFloat f1 f2 (.fin x) = .fin y) :
    floatToFloat f1 f2 narrow (.fin x) = (true, .fin y) := by
  unfold floatToFloat
  simp only [isInf_fin, isNaN, h]
  rfl

theorem narrow_gen (f1 f2 : Fmt) (hp : 0 < f2.p) (hpt : f2.p ≤ f2.top) (x : Int) :
    ∃ y, floatToFloat f1 f2 true (.fin x) = (true, .fin y) ∧ IsFloat f2.p f2.top y ∧
      ∀ z, IsFloat f2.p f2.top z →
        (x * 2 ^ f2.K - y * 2 ^ f1.K).natAbs ≤ (x * 2 ^ f2.K - z * 2 ^ f1.K).natAbs := by
  have hx : (if decide (x < 0) = true then -((x.natAbs * 2 ^ f2.K : Nat) : Int) else ((x.natAbs * 2 ^ f2.K : Nat) : Int))
      = x * 2 ^ f2.K := by
    push_cast
    by_cases h0 : x < 0
    · simp only [h0, decide_true, if_true]
      rw [← Int.neg_mul]; congr 1; omega
    · simp only [h0, decide_false, Bool.false_eq_true, if_false]
      congr 1; omega
  have hcast : ∀ z : Int, ((2 ^ f1.K : Nat) : Int) * z = z * 2 ^ f1.K := by
    intro z; rw [Int.mul_comm]; push_cast; rfl
  rcases hc : roundQ f2 (x < 0) (x.natAbs * 2 ^ f2.K) (2 ^ f1.K) with _ | n | y
  · unfold roundQ at hc
    simp only at hc
    split at hc <;> cases hc
  · have hn := roundQ_inf f2 _ n _ _ hp hpt (pow_pos' _) hc
    have hM : IsFloat f2.p f2.top (maxFloat f2) := by
      rw [maxFloat_nat]
      exact ⟨⟨2 ^ f2.p - 1, f2.top - f2.p, by have := pow_pos' f2.p; omega, rfl⟩, max_lt f2 hpt⟩
    have h0 : ¬ x = 0 := by
      rintro rfl
      have := cast_exact f1 f2 0 0 ⟨⟨0, 0, pow_pos' _, by simp⟩, by simpa using pow_pos' f2.top⟩ (by simp)
      have h' : castFloat f1 f2 (.fin 0) = .inf n := hc
      rw [this] at h'
      cases h'
    have hinf : isInf f2 (.inf n) = true := by simp [isInf, sub, isNaN]
    refine ⟨if x < 0 then -maxFloat f2 else maxFloat f2, ?_, ?_, ?_⟩
    · have hct : castFloat f1 f2 (.fin x) = .inf n := hc
      unfold floatToFloat
      simp only [isInf_fin, hct, hinf]
      by_cases h1 : x < 0
      · have h2 : gt (.fin x) (.fin 0) = false := by simp [gt, ge]; omega
        simp only [h1, h2, isNaN, Bool.or_true, Bool.or_self, if_true, Bool.false_eq_true, if_false]
      · have h2 : gt (.fin x) (.fin 0) = true := by simp [gt, ge]; omega
        simp only [h1, h2, isNaN, Bool.or_true, Bool.or_self, if_true, Bool.false_eq_true, if_false]
    · split
      · unfold IsFloat; rw [Int.natAbs_neg]; exact hM
      · exact hM
    · intro z hz
      have := hn z hz
      rw [hx, hcast, hcast] at this
      by_cases h1 : x < 0
      · simp only [h1, decide_true, if_true] at this ⊢; exact this
      · simp only [h1, decide_false, Bool.false_eq_true, if_false] at this ⊢; exact this
  · refine ⟨y, floatToFloat_fin _ _ _ _ _ hc, roundQ_float f2 _ _ _ hp (pow_pos' _) y hc, ?_⟩
    intro z hz
    have := roundQ_nearest f2 _ _ _ hp (pow_pos' _) y hc z hz.1
    rw [hx, hcast, hcast] at this
    exact this

end Verif.FloatNum
