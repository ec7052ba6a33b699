import Verif.Proof.DoubleInteger
/-!
# C64: numbers of twice the width of a machine integer

`raw` and `value` are in `Verif.Spec.DoubleInteger`: the bits and the number that two halves stand for.  The width `n`
of a half is any positive number, `s` is the signedness of the type of the halves.
-/
namespace Verif.DoubleInteger
open Verif.Spec.DoubleInteger

/-- **C64, arithmetic.**  Additions and subtractions of the double type, signed or not, are those of the numbers
modulo `2 ^ (2 n)`; the bitwise operators act on all the bits. -/
theorem c64_arithmetic (s : Bool) {n : Nat} (hn : 0 < n) (a b : Dbl n) :
    raw (add s a b).upper (add s a b).lower = (raw a.upper a.lower + raw b.upper b.lower) % 2 ^ (2 * n) ∧
    raw (sub s a b).upper (sub s a b).lower
      = (2 ^ (2 * n) + raw a.upper a.lower - raw b.upper b.lower) % 2 ^ (2 * n) ∧
    raw (not a).upper (not a).lower = 2 ^ (2 * n) - 1 - raw a.upper a.lower ∧
    raw (and a b).upper (and a b).lower = raw a.upper a.lower &&& raw b.upper b.lower ∧
    raw (or a b).upper (or a b).lower = raw a.upper a.lower ||| raw b.upper b.lower := by
  have h2 : 2 * n = n + n := by omega
  rw [h2]
  have hb := raw_lt b.upper b.lower
  simp only [← bv_toNat] at hb ⊢
  refine ⟨?_, ?_, ?_, ?_, ?_⟩
  · rw [bv_add s hn, BitVec.toNat_add]
  · rw [bv_sub s hn, BitVec.toNat_sub]
    congr 1
    omega
  · rw [bv_not, BitVec.toNat_not]
  · rw [bv_and, BitVec.toNat_and]
  · rw [bv_or, BitVec.toNat_or]

/-- **C64, order.**  The six comparisons are those of the numbers, for signed and for unsigned halves. -/
theorem c64_order (s : Bool) {n : Nat} (hn : 0 < n) (a b : Dbl n) :
    gt s a b = decide (value s a.upper a.lower > value s b.upper b.lower) ∧
    lt s a b = decide (value s a.upper a.lower < value s b.upper b.lower) ∧
    ge s a b = decide (value s a.upper a.lower ≥ value s b.upper b.lower) ∧
    le s a b = decide (value s a.upper a.lower ≤ value s b.upper b.lower) ∧
    eq a b = decide (value s a.upper a.lower = value s b.upper b.lower) ∧
    ne a b = decide (value s a.upper a.lower ≠ value s b.upper b.lower) := by
  have hg := gt_value s a b
  have hne : ne a b = decide (value s a.upper a.lower ≠ value s b.upper b.lower) := by
    rw [Bool.eq_iff_iff, ne_iff, decide_eq_true_iff, Ne, Ne, value_inj s hn]
  have hlt : lt s a b = decide (value s a.upper a.lower < value s b.upper b.lower) := by
    unfold lt
    rw [hg, hne, Bool.eq_iff_iff]
    simp only [Bool.and_eq_true, Bool.not_eq_true', decide_eq_true_iff, decide_eq_false_iff_not]
    omega
  refine ⟨hg, hlt, ?_, ?_, ?_, hne⟩
  · unfold ge
    rw [hlt, ← decide_not, decide_eq_decide]; omega
  · unfold le
    rw [hg, ← decide_not, decide_eq_decide]; omega
  · unfold eq
    rw [hne, ← decide_not, decide_eq_decide]; omega

/-- **C64, shifts of unsigned numbers.**  For every shift, also longer than the number: to the left they multiply
modulo `2 ^ (2 n)`, to the right they divide, and the `Safe` and `Logical` shifts do the same. -/
theorem c64_shift_unsigned {n : Nat} (a : Dbl n) (k : Nat) :
    raw (shlAssign false a k).upper (shlAssign false a k).lower = raw a.upper a.lower * 2 ^ k % 2 ^ (2 * n) ∧
    raw (shrAssign false a k).upper (shrAssign false a k).lower = raw a.upper a.lower / 2 ^ k ∧
    shlSafe false a k = shlAssign false a k ∧
    logicalShr false a k = shrAssign false a k ∧
    logicalShrSafe false a k = shrAssign false a k := by
  have h2 : 2 * n = n + n := by omega
  have hz : bv (⟨0, 0⟩ : Dbl n) = 0 := by
    apply BitVec.eq_of_toNat_eq; rw [bv_toNat]; simp [raw]
  refine ⟨?_, ?_, ?_, rfl, ?_⟩
  · rw [h2, ← bv_toNat, ← bv_toNat, bv_shl, BitVec.toNat_shiftLeft, Nat.shiftLeft_eq]
  · rw [← bv_toNat, ← bv_toNat, bv_shr, BitVec.toNat_ushiftRight, Nat.shiftRight_eq_div_pow]
  · unfold shlSafe
    split
    · apply bv_inj
      rw [bv_shl, hz, BitVec.shiftLeft_eq_zero (by omega)]
      rfl
    · rfl
  · unfold logicalShrSafe
    split
    · apply bv_inj
      rw [bv_shr, hz, BitVec.ushiftRight_eq_zero (by omega)]
      rfl
    · rfl

/-- **C64, shifts of signed numbers, partial.**  They multiply and divide (rounding down) when the most significant
bit of the lower half is clear, and for shifts of a half or more.
The full statement is without that hypothesis and is false: see `c64_signed_shift_fails`. -/
theorem c64_signed_shift_partial {n : Nat} (hn : 0 < n) (a : Dbl n) (k : Nat)
    (h : a.lower.toNat < 2 ^ (n - 1) ∨ n ≤ k) :
    raw (shlAssign true a k).upper (shlAssign true a k).lower = raw a.upper a.lower * 2 ^ k % 2 ^ (2 * n) ∧
    value true (shrAssign true a k).upper (shrAssign true a k).lower = value true a.upper a.lower / 2 ^ k := by
  have h2 : 2 ^ n = 2 * 2 ^ (n - 1) := by
    rw [← Nat.pow_succ', show (n - 1).succ = n by omega]
  have h' : 2 * a.lower.toNat < 2 ^ n ∨ n ≤ k ∨ k = 0 := by omega
  constructor
  · rw [shl_signed a k h']
    exact (c64_shift_unsigned a k).1
  · rw [value_signed hn, value_signed hn, bv_sshr a k h', BitVec.toInt_sshiftRight, Int.shiftRight_eq_div_pow]
    push_cast
    rfl

/-- **C64, construction.**  A number of any other type, wider or narrower, keeps its value (modulo `2 ^ (2 n)`). -/
theorem c64_of {n m : Nat} (hn : 0 < n) (hm : 0 < m) (x : BitVec m) :
    raw (ofT n false x).upper (ofT n false x).lower = x.toNat % 2 ^ (2 * n) ∧
    (raw (ofT n true x).upper (ofT n true x).lower : Int) = x.toInt % 2 ^ (2 * n) ∧
    (m ≤ 2 * n → value true (ofT n true x).upper (ofT n true x).lower = x.toInt) := by
  have h2 : 2 * n = n + n := by omega
  refine ⟨?_, ?_, ?_⟩
  · rw [h2, ← bv_toNat, bv_ofT_nat]
  · rw [h2, ← bv_toNat, bv_ofT_int hm]
    have e0 : ∀ (z : Int) (w : Nat), z.bmod (2 ^ w) % 2 ^ w = z % 2 ^ w := by
      intro z w
      have := Int.bmod_emod (x := z) (m := 2 ^ w)
      push_cast at this
      exact this
    have e1 : ∀ (w : Nat) (y : BitVec w), (y.toNat : Int) = y.toInt % 2 ^ w := by
      intro w y
      have := y.isLt
      rw [BitVec.toInt_eq_toNat_bmod, e0]
      rw [show (2 : Int) ^ w = ((2 ^ w : Nat) : Int) by push_cast; rfl]
      exact (Int.emod_eq_of_lt (by omega) (by omega)).symm
    rw [e1]
    by_cases hle : m ≤ n + n
    · rw [BitVec.toInt_signExtend_of_le hle]
    · rw [BitVec.toInt_signExtend, Nat.min_eq_left (by omega), e0]
  · intro hle
    rw [value_signed hn, bv_ofT_int hm, BitVec.toInt_signExtend_of_le (by omega)]

/-- **C64, shifts of signed numbers fail.**  `0x80` shifted left by one in two halves of eight bits is `0xff00`
instead of `0x0100`; `0x0180 >> 1` is `0x00c0` but gives `0x00c0 | 0x80 >> 1` with the sign copied. -/
theorem c64_signed_shift_fails :
    shlAssign true (⟨0x80, 0⟩ : Dbl 8) 1 = ⟨0, 0xff⟩ ∧ shlAssign false (⟨0x80, 0⟩ : Dbl 8) 1 = ⟨0, 1⟩ ∧
    value true (0 : BitVec 8) 0x80 = 128 ∧
    value true (shrAssign true (⟨0x80, 0⟩ : Dbl 8) 1).upper (shrAssign true (⟨0x80, 0⟩ : Dbl 8) 1).lower = 0xc0 := by
  decide

/-- **C64, shifts of signed numbers fail for every number** with the most significant bit of the lower half set: for a
shift of at least one and less than a half, all the bits of the upper half above the shift are set. -/
theorem c64_signed_shift_fills {n : Nat} (a : Dbl n) (k : Nat) (h : a.lower.msb = true) (hk : 0 < k) (hkn : k < n)
    (i : Nat) (hi : k ≤ i) (hin : i < n) : (shlAssign true a k).upper.getLsbD i = true := by
  have h1 : ¬ n ≤ i := by omega
  have h2 : ¬ n - k + i < n := by omega
  simp only [shlAssign, hk, hkn, if_true, tshr, BitVec.getLsbD_or, BitVec.getLsbD_sshiftRight, h, h1, h2, decide_false,
    Bool.not_false, if_false, Bool.true_and, Bool.or_true]

/-- **C64, the logical shift of signed numbers** is the other one, for every number and shift. -/
theorem c64_logical_signed {n : Nat} (a : Dbl n) (k : Nat) : logicalShr true a k = shrAssign true a k := by
  unfold logicalShr shrAssign
  simp only [if_true]

/-- **C64, the logical shift is not logical.**  The `LogicalRightShift` of a negative number keeps the sign:
`-1 >> 1` is `-1` and not `0x7fff`. -/
theorem c64_logical_fails :
    logicalShr true (⟨0xff, 0xff⟩ : Dbl 8) 1 = ⟨0xff, 0xff⟩ ∧
    raw (BitVec.ofNat 8 0xff) (BitVec.ofNat 8 0xff) / 2 = 0x7fff := by decide

example : raw (add true (⟨0xff, 0x00⟩ : Dbl 8) ⟨0x01, 0x00⟩).upper (add true (⟨0xff, 0x00⟩ : Dbl 8) ⟨0x01, 0x00⟩).lower = 0x100 ∧
    raw (sub true (⟨0x00, 0x01⟩ : Dbl 8) ⟨0x01, 0x00⟩).upper (sub true (⟨0x00, 0x01⟩ : Dbl 8) ⟨0x01, 0x00⟩).lower = 0xff ∧
    gt true (⟨0x80, 0⟩ : Dbl 8) ⟨0x7f, 0⟩ = true ∧ gt true (⟨0x80, 0⟩ : Dbl 8) ⟨0x7f, 0xff⟩ = true ∧
    shrAssign true (⟨0x7f, 0xff⟩ : Dbl 8) 9 = ⟨0xff, 0xff⟩ := by decide

end Verif.DoubleInteger
