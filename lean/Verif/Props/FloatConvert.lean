import Verif.Props.FloatInt
/-!
# C67: conversions to floating point numbers, and booleans

The finite numbers of a format are in units of `2 ^ -K` (see C66), so the integer `v` is `v * 2 ^ K` and the number `x`
of `float64` compares with `y` of `float32` as `x * 2 ^ f32.K` with `y * 2 ^ f64.K`.
-/
namespace Verif.FloatNum
open Verif.Spec.FloatNum
open Verif.BitConvert (Mem Field)
open Verif.Spec.BitConvert (value bit)

/-- **C67, integers.**  An integer of 8, 16, 32 or 64 bits in the memory gives the nearest number of the format. -/
theorem c67_integer (f : Fmt) (hf : f = f32 ∨ f = f64) (mem : Mem) (s : Field)
    (hb : s.bits = 8 ∨ s.bits = 16 ∨ s.bits = 32 ∨ s.bits = 64) (hs : s.shift = 0)
    (hm : 8 * s.pointer + s.bits ≤ 8 * mem.length) :
    ∃ y, fieldToFloat f mem s = some (true, some (.fin y)) ∧ IsFloat f.p f.top y ∧
      ∀ z, IsFloat f.p f.top z → (value mem (8 * s.pointer) s.bits s.signed * 2 ^ f.K - y).natAbs
        ≤ (value mem (8 * s.pointer) s.bits s.signed * 2 ^ f.K - z).natAbs := by
  have hp : 0 < f.p := by rcases hf with rfl | rfl <;> decide
  obtain ⟨k, hk, hk8, hc⟩ := chosen_whole s.bits hb s rfl hs
  obtain ⟨bs, r1, r2⟩ := read_int mem s.pointer k hk s.signed (by omega)
  rw [hk8] at r2
  have hr := value_range mem (8 * s.pointer) s.bits (by omega) s.signed
  obtain ⟨y, hy⟩ := ofInt_fin f s.bits ⟨hf, hb⟩ s.signed _ hr.1 hr.2
  refine ⟨y, ?_, ?_, ?_⟩
  · unfold fieldToFloat
    rw [hc]
    simp only [r1, r2, integerToFloat, hy, isInf_fin, isNaN]
    rfl
  · exact roundQ_float f _ _ 1 hp (by omega) y hy
  · intro z hz
    have := roundQ_nearest f _ _ 1 hp (by omega) y hy z hz.1
    generalize value mem (8 * s.pointer) s.bits s.signed * 2 ^ f.K = v at *
    by_cases h0 : v < 0
    · simp only [h0, decide_true, if_true] at this
      omega
    · simp only [h0, decide_false, Bool.false_eq_true, if_false] at this
      omega

/-- **C67, integers of the size of the significand are exact and come back.** -/
theorem c67_round_trip (f : Fmt) (hf : f = f32 ∨ f = f64) (bits : Nat)
    (hb : bits = 8 ∨ bits = 16 ∨ bits = 32 ∨ bits = 64) (signed : Bool) (i : Int) (h1 : least bits signed ≤ i)
    (h2 : i ≤ greatest bits signed) (hi : i.natAbs ≤ 2 ^ f.p) :
    integerToFloat f i = (true, .fin (i * 2 ^ f.K)) ∧ floatToInteger f bits signed (.fin (i * 2 ^ f.K)) = some i := by
  have hfl : IsFloat f.p f.top (i * 2 ^ f.K) := by
    refine ⟨?_, ?_⟩
    · rw [natAbs_mul_pow]
      by_cases he : i.natAbs = 2 ^ f.p
      · refine ⟨1, f.p + f.K, by rcases hf with rfl | rfl <;> decide, ?_⟩
        rw [he, ← Nat.pow_add, Nat.one_mul]
      · exact ⟨i.natAbs, f.K, by omega, rfl⟩
    · rw [natAbs_mul_pow]
      refine Nat.lt_of_le_of_lt (Nat.mul_le_mul_right _ hi) ?_
      rw [← Nat.pow_add]
      exact Nat.pow_lt_pow_right (by omega) (by rcases hf with rfl | rfl <;> decide)
  refine ⟨?_, c66_exact f hf bits hb signed i hfl h1 h2⟩
  have : ofInt f i = .fin (i * 2 ^ f.K) := round_exact f _ hfl
  unfold integerToFloat
  simp only [this, isInf_fin, isNaN]
  rfl

/-- **C67, to the wider format.**  The number is kept, and converting it back gives the same number. -/
theorem c67_widen (x : Int) (hx : IsFloat f32.p f32.top x) :
    floatToFloat f32 f64 false (.fin x) = (true, .fin (x * 2 ^ (f64.K - f32.K))) ∧
    floatToFloat f64 f32 true (.fin (x * 2 ^ (f64.K - f32.K))) = (true, .fin x) := by
  have hK : (x * 2 ^ (f64.K - f32.K)) * 2 ^ f32.K = x * 2 ^ f64.K := by
    rw [Int.mul_assoc, ← Int.pow_add, show f64.K - f32.K + f32.K = f64.K by decide]
  exact ⟨floatToFloat_fin _ _ _ _ _
      (cast_exact f32 f64 x _ (isFloat_scale _ _ _ _ x hx _ (by decide) (by decide)) hK),
    floatToFloat_fin _ _ _ _ _ (cast_exact f64 f32 _ x hx hK.symm)⟩

/-- **C67, to the narrower format.**  Every finite `float64` gives the nearest finite `float32`: the greatest or the
least one when it is beyond them. -/
theorem c67_narrow (x : Int) :
    ∃ y, floatToFloat f64 f32 true (.fin x) = (true, .fin y) ∧ IsFloat f32.p f32.top y ∧
      ∀ z, IsFloat f32.p f32.top z →
        (x * 2 ^ f32.K - y * 2 ^ f64.K).natAbs ≤ (x * 2 ^ f32.K - z * 2 ^ f64.K).natAbs :=
  narrow_gen f64 f32 (by decide) (by decide) x

/-- **C67, refusals.**  NaN and infinities are not converted to the other format, nor numbers to booleans. -/
theorem c67_refused (f1 f2 : Fmt) (narrow n : Bool) (x : Flt) :
    floatToFloat f1 f2 narrow .nan = (false, .fin 0) ∧ floatToFloat f1 f2 narrow (.inf n) = (false, .fin 0) ∧
    floatToBool x = (false, false) := by
  refine ⟨rfl, ?_, rfl⟩
  unfold floatToFloat isInf sub
  simp [isNaN]

/-- **C67, booleans to integers.**  One or zero in the whole destination, and nothing else changes. -/
theorem c67_bool (mem : Mem) (d : Field) (hb : d.bits = 8 ∨ d.bits = 16 ∨ d.bits = 32 ∨ d.bits = 64)
    (hs : d.shift = 0) (hm : 8 * d.pointer + d.bits ≤ 8 * mem.length) (b : Bool) :
    ∃ mem', boolToField mem d b = some (true, mem') ∧ mem'.length = mem.length ∧
      value mem' (8 * d.pointer) d.bits d.signed = (if b then 1 else 0) ∧
      integerToBool d.bits (!b) (Spec.BitConvert.bits mem' (8 * d.pointer) d.bits) = (true, b) ∧
      ∀ i, i < 8 * d.pointer ∨ 8 * d.pointer + d.bits ≤ i → bit mem' i = bit mem i := by
  have hsz : bitSize d / 8 = d.bits / 8 := by unfold bitSize; rw [hs]; omega
  have hk : 0 < d.bits / 8 := by omega
  have hlen : (List.replicate (d.bits / 8) (0 : BitVec 8)).length = d.bits / 8 := by simp
  let m1 : Mem := mem.take d.pointer ++ List.replicate (d.bits / 8) 0 ++ mem.drop (d.pointer + d.bits / 8)
  have hm1len : m1.length = mem.length := by
    simp only [m1, List.length_append, List.length_take, List.length_drop, List.length_replicate]; omega
  have hw1 := fun i => BitConvert.bit_write mem (List.replicate (d.bits / 8) 0) d.pointer i (by rw [hlen]; omega)
  rw [hlen] at hw1
  have hw2 := fun i => BitConvert.bit_write m1 [if b then 1 else 0] d.pointer i
    (by rw [hm1len]; simp only [List.length_singleton]; omega)
  have hz : ∀ i, Spec.BitConvert.bit (List.replicate (d.bits / 8) 0) i = false := by
    intro i
    unfold Spec.BitConvert.bit
    rw [List.getD_eq_getElem?_getD, List.getElem?_replicate]
    split <;> simp
  have h1 : ∀ i, Spec.BitConvert.bit [if b then (1 : BitVec 8) else 0] i = (b && decide (i = 0)) := by
    intro i
    by_cases h : i < 8
    · have h8 : i = 0 ∨ i = 1 ∨ i = 2 ∨ i = 3 ∨ i = 4 ∨ i = 5 ∨ i = 6 ∨ i = 7 := by omega
      rcases h8 with rfl | rfl | rfl | rfl | rfl | rfl | rfl | rfl <;> cases b <;> decide
    · rw [BitConvert.bit_of_ge _ _ (by simp only [List.length_singleton]; omega)]
      have : i ≠ 0 := by omega
      simp [this]
  have key : Spec.BitConvert.bits (m1.take d.pointer ++ [if b then 1 else 0] ++ m1.drop (d.pointer + 1)) (8 * d.pointer) d.bits
      = (if b then 1 else 0) % 2 ^ d.bits := by
    apply BitConvert.bits_of_bit
    intro i hi1 hi2
    have e := hw2 i
    simp only [List.length_singleton] at e
    rw [e]
    by_cases hi : i < 8 * (d.pointer + 1)
    · rw [if_pos ⟨hi1, hi⟩, h1]
      cases b
      · simp
      · simp only [if_true, Bool.true_and, Nat.testBit_one_eq_true_iff_self_eq_zero]
        rw [Bool.eq_iff_iff]
        simp [Nat.testBit_one_eq_true_iff_self_eq_zero]
    · rw [if_neg (by omega)]
      have := hw1 i
      rw [show Spec.BitConvert.bit m1 i = _ from this, if_pos (by omega), hz]
      cases b
      · simp
      · have : i - 8 * d.pointer ≠ 0 := by omega
        symm
        rw [if_pos rfl]
        rw [Bool.eq_false_iff]
        intro hc
        rw [Nat.testBit_one_eq_true_iff_self_eq_zero] at hc
        omega
  have h2 : (if b then 1 else 0) % 2 ^ d.bits = if b then 1 else 0 := by
    apply Nat.mod_eq_of_lt
    have : 2 ^ 1 ≤ 2 ^ d.bits := Nat.pow_le_pow_right (by omega) (by omega)
    split <;> omega
  rw [h2] at key
  refine ⟨m1.take d.pointer ++ [if b then 1 else 0] ++ m1.drop (d.pointer + 1), ?_, ?_, ?_, ?_, ?_⟩
  · unfold boolToField BitConvert.writeBytes
    rw [hsz, hlen, if_pos (by omega)]
    simp only [List.length_singleton]
    rw [if_pos (by show d.pointer + 1 ≤ m1.length; omega)]
    rfl
  · simp only [List.length_append, List.length_take, List.length_drop, List.length_singleton, hm1len]; omega
  · rw [BitConvert.value_decode _ _ _ (by omega), key]
    unfold BitConvert.decode
    have : 2 ^ 1 ≤ 2 ^ (d.bits - 1) := Nat.pow_le_pow_right (by omega) (by omega)
    rw [if_neg (by rintro ⟨-, h⟩; split at h <;> omega)]
    cases b <;> rfl
  · unfold integerToBool
    rw [if_pos hb, key]
    cases b <;> rfl
  · intro i hi
    have e := hw2 i
    simp only [List.length_singleton] at e
    rw [e, if_neg (by omega)]
    have := hw1 i
    rw [show Spec.BitConvert.bit m1 i = _ from this, if_neg (by omega)]

/-- **C67, integers to booleans fail.**  Only one is true: any other number, also different from zero, is false; and a
type of another size leaves the boolean as it was, with the answer `true`. -/
theorem c67_to_bool_fails (bits : Nat) (old : Bool) (n : Nat) (h : n ≠ 1) :
    ((bits = 8 ∨ bits = 16 ∨ bits = 32 ∨ bits = 64) → integerToBool bits old n = (true, false)) ∧
    (¬ (bits = 8 ∨ bits = 16 ∨ bits = 32 ∨ bits = 64) → integerToBool bits old n = (true, old)) := by
  unfold integerToBool
  refine ⟨fun hb => ?_, fun hb => ?_⟩
  · rw [if_pos hb]; simp [h]
  · rw [if_neg hb]

/-- **C67, fields of bits fail.**  A field of four bits at bit 4 with the value 10 gives the number 171 of the whole
byte; a boolean to it clears the rest of the byte. -/
theorem c67_bits_fails :
    value [0xab] 4 4 false = 10 ∧
    fieldToFloat f64 [0xab] ⟨0, 4, 4, false⟩ = some (true, some (.fin (171 * 2 ^ 1074))) ∧
    boolToField [0xab] ⟨0, 4, 4, false⟩ true = some (true, [0x01]) ∧ value [0x01] 4 4 false = 0 := by decide +kernel

/-- The hypotheses can be met: 16777217 is not a `float32` and gives 16777216; 0.1 of `float64` to `float32`. -/
example : fieldToFloat f32 [0x01, 0x00, 0x00, 0x01] ⟨0, 0, 32, true⟩ = some (true, some (.fin (16777216 * 2 ^ 149))) ∧
    floatToFloat f64 f32 true (.fin (0x1999999999999A * 2 ^ (1074 - 56))) = (true, .fin (0xCCCCCD * 2 ^ (149 - 27))) ∧
    floatToFloat f64 f32 true (.fin (2 ^ 200 * 2 ^ 1074)) = (true, .fin (0xffffff * 2 ^ 253)) := by decide +kernel

end Verif.FloatNum
