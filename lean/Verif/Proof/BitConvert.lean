import Verif.Model.BitConvert
import Verif.Spec.BitConvert
import Verif.Proof.DoubleInteger
set_option linter.unusedSimpArgs false
namespace Verif.BitConvert
open Verif.DoubleInteger

/-! ## Numbers and bytes -/

theorem p256 (k : Nat) : 256 ^ k = 2 ^ (8 * k) := by
  rw [Nat.pow_mul]

theorem leNat_lt (bs : List Byte) : leNat bs < 2 ^ (8 * bs.length) := by
  induction bs with
  | nil => simp [leNat]
  | cons b bs ih =>
    have := b.isLt
    simp only [leNat, List.length_cons, Nat.mul_add, Nat.pow_add]
    omega

theorem leNat_testBit (mem : List Byte) (i : Nat) : (leNat mem).testBit i = Spec.BitConvert.bit mem i := by
  induction mem generalizing i with
  | nil => simp [leNat, Spec.BitConvert.bit]
  | cons b bs ih =>
    unfold leNat
    have hb : b.toNat < 2 ^ 8 := b.isLt
    rw [Nat.add_comm, show 256 * leNat bs = leNat bs <<< 8 by rw [Nat.shiftLeft_eq]; omega,
      Nat.shiftLeft_add_eq_or_of_lt hb, Nat.testBit_or, Nat.testBit_shiftLeft]
    by_cases h : i < 8
    · have h1 : i / 8 = 0 := by omega
      have h2 : i % 8 = i := by omega
      have h3 : ¬ 8 ≤ i := by omega
      simp [Spec.BitConvert.bit, h1, h2, h3, BitVec.getLsbD, h]
    · have h1 : b.toNat.testBit i = false := Nat.testBit_lt_two_pow (by
        exact Nat.lt_of_lt_of_le hb (Nat.pow_le_pow_right (by omega) (by omega)))
      have h2 : i / 8 = (i - 8) / 8 + 1 := by omega
      have h3 : i % 8 = (i - 8) % 8 := by omega
      have h4 : 8 ≤ i := by omega
      rw [ih]
      simp only [Spec.BitConvert.bit, h1, h2, h3, h4, List.getD_cons_succ, decide_true, Bool.true_and, Bool.or_false]

theorem spec_bits (mem : List Byte) (a n : Nat) : Spec.BitConvert.bits mem a n = leNat mem / 2 ^ a % 2 ^ n := by
  induction n with
  | zero => simp [Spec.BitConvert.bits, Nat.mod_one]
  | succ n ih =>
    unfold Spec.BitConvert.bits
    rw [ih, Nat.mod_pow_succ, ← leNat_testBit]
    congr 1
    rw [Nat.testBit_eq_decide_div_mod_eq, Nat.pow_add, ← Nat.div_div_eq_div_mul]
    have : leNat mem / 2 ^ a / 2 ^ n % 2 < 2 := Nat.mod_lt _ (by omega)
    by_cases h : leNat mem / 2 ^ a / 2 ^ n % 2 = 1
    · simp [h]
    · have h0 : leNat mem / 2 ^ a / 2 ^ n % 2 = 0 := by omega
      simp [h0]

theorem bits_testBit (mem : List Byte) (a n i : Nat) :
    (Spec.BitConvert.bits mem a n).testBit i = (decide (i < n) && Spec.BitConvert.bit mem (a + i)) := by
  rw [spec_bits, Nat.testBit_mod_two_pow, Nat.testBit_div_two_pow, leNat_testBit, Nat.add_comm]

theorem leBytes_length (k x : Nat) : (leBytes k x).length = k := by
  induction k generalizing x with
  | zero => rfl
  | succ k ih => simp [leBytes, ih]

theorem leBytes_bit (k x i : Nat) (h : i < 8 * k) : Spec.BitConvert.bit (leBytes k x) i = x.testBit i := by
  induction k generalizing x i with
  | zero => omega
  | succ k ih =>
    unfold leBytes
    by_cases h8 : i < 8
    · have h1 : i / 8 = 0 := by omega
      have h2 : i % 8 = i := by omega
      simp only [Spec.BitConvert.bit, h1, h2, List.getD_cons_zero, BitVec.getLsbD_ofNat, h8, decide_true, Bool.true_and]
    · have h2 : i / 8 = (i - 8) / 8 + 1 := by omega
      have h3 : i % 8 = (i - 8) % 8 := by omega
      have := ih (x / 256) (i - 8) (by omega)
      simp only [Spec.BitConvert.bit] at this ⊢
      rw [h2, h3, List.getD_cons_succ, this]
      rw [show (256 : Nat) = 2 ^ 8 by rfl, Nat.testBit_div_two_pow]
      congr 1; omega

theorem bit_of_ge (mem : List Byte) (i : Nat) (h : 8 * mem.length ≤ i) : Spec.BitConvert.bit mem i = false := by
  rw [← leNat_testBit]
  exact Nat.testBit_lt_two_pow (Nat.lt_of_lt_of_le (leNat_lt mem) (Nat.pow_le_pow_right (by omega) h))

theorem bit_slice (mem : List Byte) (p k i : Nat) (hp : p + k ≤ mem.length) :
    Spec.BitConvert.bit ((mem.drop p).take k) i = (decide (i < 8 * k) && Spec.BitConvert.bit mem (8 * p + i)) := by
  by_cases h : i < 8 * k
  · have h1 : (8 * p + i) / 8 = p + i / 8 := by omega
    have h2 : (8 * p + i) % 8 = i % 8 := by omega
    have h3 : i / 8 < k := by omega
    simp only [Spec.BitConvert.bit, h, h1, h2, decide_true, Bool.true_and]
    congr 1
    simp only [List.getD_eq_getElem?_getD, List.getElem?_take, h3, if_true, List.getElem?_drop]
  · rw [bit_of_ge]
    · simp [h]
    · simp only [List.length_take, List.length_drop]
      omega

theorem bit_write (mem bs : List Byte) (p i : Nat) (hp : p + bs.length ≤ mem.length) :
    Spec.BitConvert.bit (mem.take p ++ bs ++ mem.drop (p + bs.length)) i
      = if 8 * p ≤ i ∧ i < 8 * (p + bs.length) then Spec.BitConvert.bit bs (i - 8 * p)
        else Spec.BitConvert.bit mem i := by
  have hl : (mem.take p).length = p := by simp; omega
  simp only [Spec.BitConvert.bit, List.getD_eq_getElem?_getD]
  by_cases h1 : i / 8 < p
  · have hc : ¬ (8 * p ≤ i ∧ i < 8 * (p + bs.length)) := by omega
    simp only [hc, if_false]
    rw [List.append_assoc, List.getElem?_append_left (by omega), List.getElem?_take]
    simp [h1]
  · by_cases h2 : i / 8 < p + bs.length
    · have hc : (8 * p ≤ i ∧ i < 8 * (p + bs.length)) := by omega
      simp only [hc, and_self, if_true]
      rw [List.append_assoc, List.getElem?_append_right (by omega), List.getElem?_append_left (by omega), hl]
      have e1 : i / 8 - p = (i - 8 * p) / 8 := by omega
      have e2 : i % 8 = (i - 8 * p) % 8 := by omega
      rw [e1, e2]
    · have hc : ¬ (8 * p ≤ i ∧ i < 8 * (p + bs.length)) := by omega
      simp only [hc, if_false]
      rw [List.append_assoc, List.getElem?_append_right (by omega), List.getElem?_append_right (by omega), hl,
        List.getElem?_drop]
      congr 4
      omega

/-! ## Masks -/

theorem and_mask (S s e : Nat) (hS : S < 2 ^ s) (he : e ≤ s) : S &&& (2 ^ s - 2 ^ e) = S / 2 ^ e * 2 ^ e := by
  have h1 : 2 ^ s - 2 ^ e = (2 ^ (s - e) - 1) <<< e := by
    rw [Nat.shiftLeft_eq, Nat.sub_mul, Nat.one_mul, ← Nat.pow_add, show s - e + e = s by omega]
  apply Nat.eq_of_testBit_eq
  intro i
  rw [h1, Nat.testBit_and, Nat.testBit_shiftLeft, Nat.testBit_two_pow_sub_one, ← Nat.shiftLeft_eq, Nat.testBit_shiftLeft,
    Nat.testBit_div_two_pow]
  by_cases hi : e ≤ i
  · have h2 : i - e + e = i := by omega
    by_cases hs : i < s
    · have : i - e < s - e := by omega
      simp [hi, h2, this]
    · have h3 : S.testBit i = false := Nat.testBit_lt_two_pow (Nat.lt_of_lt_of_le hS (Nat.pow_le_pow_right (by omega) (by omega)))
      simp [h2, h3]
  · simp [hi]

theorem and_mask_eq (S s e : Nat) (hS : S < 2 ^ s) (he : e ≤ s) :
    S &&& (2 ^ s - 2 ^ e) = 2 ^ s - 2 ^ e ↔ 2 ^ s - 2 ^ e ≤ S := by
  rw [and_mask S s e hS he]
  have h1 : 2 ^ s - 2 ^ e = (2 ^ (s - e) - 1) * 2 ^ e := by
    rw [Nat.sub_mul, Nat.one_mul, ← Nat.pow_add, show s - e + e = s by omega]
  have h2 : 2 ^ s = 2 ^ (s - e) * 2 ^ e := by rw [← Nat.pow_add, show s - e + e = s by omega]
  have hpe : 0 < 2 ^ e := Nat.pow_pos (by omega)
  rw [h1]
  constructor
  · intro h
    rw [← h]
    exact Nat.div_mul_le_self S _
  · intro h
    have h3 : 2 ^ (s - e) - 1 ≤ S / 2 ^ e := (Nat.le_div_iff_mul_le hpe).2 h
    have h4 : S / 2 ^ e < 2 ^ (s - e) := (Nat.div_lt_iff_lt_mul hpe).2 (by omega)
    have h5 : S / 2 ^ e = 2 ^ (s - e) - 1 := by omega
    rw [h5]

theorem or_mask (S s d : Nat) (hS : S < 2 ^ s) (hd : s ≤ d) : S ||| (2 ^ d - 2 ^ s) = S + (2 ^ d - 2 ^ s) := by
  have h1 : 2 ^ d - 2 ^ s = (2 ^ (d - s) - 1) <<< s := by
    rw [Nat.shiftLeft_eq, Nat.sub_mul, Nat.one_mul, ← Nat.pow_add, show d - s + s = d by omega]
  rw [h1, Nat.or_comm, ← Nat.shiftLeft_add_eq_or_of_lt hS, Nat.add_comm]

theorem sign_bit (S s : Nat) (hs : 0 < s) (hS : S < 2 ^ s) : (S &&& 2 ^ (s - 1) ≠ 0) ↔ 2 ^ (s - 1) ≤ S := by
  have h2 : 2 ^ s = 2 * 2 ^ (s - 1) := by rw [← Nat.pow_succ', show (s - 1).succ = s by omega]
  have hp : 0 < 2 ^ (s - 1) := Nat.pow_pos (by omega)
  have hm := and_mask S s (s - 1) hS (by omega)
  rw [show 2 ^ s - 2 ^ (s - 1) = 2 ^ (s - 1) by omega] at hm
  rw [hm]
  by_cases h : 2 ^ (s - 1) ≤ S
  · have h3 : S / 2 ^ (s - 1) = 1 := by apply Nat.div_eq_of_lt_le <;> omega
    simp only [h3, h, iff_true]
    omega
  · have h3 : S / 2 ^ (s - 1) = 0 := Nat.div_eq_of_lt (by omega)
    simp [h3, h]

/-! ## The value computed by `BSToBS`, as a number -/

/-- What is stored for the source bits `S` of a field of `s` bits. -/
def stored (d : Nat) (dSigned : Bool) (s : Nat) (sSigned : Bool) (S : Nat) : Nat :=
  if sSigned = true ∧ 2 ^ (s - 1) ≤ S then
    if dSigned then
      if s > d then
        if 2 ^ s - 2 ^ (d - 1) ≤ S then S else 2 ^ (d - 1)
      else S + (2 ^ d - 2 ^ s)
    else 0
  else
    if dSigned then (if S > 2 ^ (d - 1) - 1 then 2 ^ (d - 1) - 1 else S)
    else (if S > 2 ^ d - 1 then 2 ^ d - 1 else S)

theorem mask_toNat (w n : Nat) (hw : w < 256) (hn : n ≤ w) :
    ((uintWord w).shr ((uintWord w).not ((uintWord w).lit 0)) (u8 (w + 256 - n))).toNat = 2 ^ n - 1 := by
  have h1 : u8 (w + 256 - n) = w - n := by unfold u8; omega
  simp only [uintWord, h1]
  by_cases h : w - n ≥ w
  · have : n = 0 ∨ w = 0 := by omega
    have hn0 : n = 0 := by omega
    subst hn0
    simp
  · simp only [h, if_false]
    rw [BitVec.toNat_ushiftRight, Nat.shiftRight_eq_div_pow, BitVec.toNat_not]
    simp only [BitVec.toNat_ofNat, Nat.zero_mod, Nat.sub_zero]
    have h2 : 2 ^ w = 2 ^ n * 2 ^ (w - n) := by rw [← Nat.pow_add, show n + (w - n) = w by omega]
    have hp : 0 < 2 ^ (w - n) := Nat.pow_pos (by omega)
    have hq : 0 < 2 ^ n := Nat.pow_pos (by omega)
    rw [h2]
    generalize 2 ^ (w - n) = B at *
    generalize 2 ^ n = A at *
    have h3 : A * B - 1 = (A - 1) * B + (B - 1) := by
      have : A * B = (A - 1) * B + B := by rw [← Nat.succ_mul, show (A - 1).succ = A by omega]
      omega
    rw [h3, Nat.mul_comm, Nat.mul_add_div hp, Nat.div_eq_of_lt (by omega), Nat.add_zero]

theorem signMask_toNat (w n : Nat) (hw : w < 256) (hn0 : 0 < n) (hn : n ≤ w) :
    ((uintWord w).shl ((uintWord w).lit 1) (u8 (n + 255))).toNat = 2 ^ (n - 1) := by
  have h1 : u8 (n + 255) = n - 1 := by unfold u8; omega
  have h2 : ¬ n - 1 ≥ w := by omega
  simp only [uintWord, h1, h2, if_false]
  have h3 : 2 ^ (n - 1) < 2 ^ w := Nat.pow_lt_pow_right (by omega) (by omega)
  have h4 : (1 : Nat) < 2 ^ w := Nat.one_lt_two_pow (by omega)
  rw [BitVec.toNat_shiftLeft, BitVec.toNat_ofNat, Nat.mod_eq_of_lt h4, Nat.shiftLeft_eq, Nat.one_mul, Nat.mod_eq_of_lt h3]

theorem shr1_toNat (w n : Nat) (hw : 1 < w) (hn0 : 0 < n) (m : BitVec w) (hm : m.toNat = 2 ^ n - 1) :
    ((uintWord w).shr m 1).toNat = 2 ^ (n - 1) - 1 := by
  have h2 : ¬ 1 ≥ w := by omega
  simp only [uintWord, h2, if_false]
  rw [BitVec.toNat_ushiftRight, Nat.shiftRight_eq_div_pow, hm]
  have h2 : 2 ^ n = 2 * 2 ^ (n - 1) := by rw [← Nat.pow_succ', show (n - 1).succ = n by omega]
  omega

theorem bsValue_toNat (w : Nat) (hw : w = 8 ∨ w = 16 ∨ w = 32 ∨ w = 64 ∨ w = 128)
    (d s : Nat) (hd0 : 0 < d) (hd : d ≤ w) (hs0 : 0 < s) (dSigned sSigned : Bool) (bs : List Byte) (sh : Nat)
    (hsh : sh + s ≤ w) (hbs : 8 * bs.length ≤ w) :
    (bsValue (uintWord w) d dSigned bs sh s sSigned).toNat
      = stored d dSigned s sSigned (leNat bs / 2 ^ sh % 2 ^ s) := by
  have hw8 : u8 ((uintWord w).size * 8) = w := by
    rcases hw with rfl | rfl | rfl | rfl | rfl <;> rfl
  have hw1 : 1 < w := by omega
  have hw256 : w < 256 := by omega
  have hs : s ≤ w := by omega
  have hL : leNat bs < 2 ^ w := Nat.lt_of_lt_of_le (leNat_lt bs) (Nat.pow_le_pow_right (by omega) hbs)
  have hdw : 2 ^ d ≤ 2 ^ w := Nat.pow_le_pow_right (by omega) hd
  have hsw : 2 ^ s ≤ 2 ^ w := Nat.pow_le_pow_right (by omega) hs
  have hd2 : 2 ^ d = 2 * 2 ^ (d - 1) := by rw [← Nat.pow_succ', show (d - 1).succ = d by omega]
  have hs2 : 2 ^ s = 2 * 2 ^ (s - 1) := by rw [← Nat.pow_succ', show (s - 1).succ = s by omega]
  have hpd : 0 < 2 ^ (d - 1) := Nat.pow_pos (by omega)
  have hps : 0 < 2 ^ (s - 1) := Nat.pow_pos (by omega)
  have e1 := mask_toNat w s hw256 hs
  have e2 := mask_toNat w d hw256 hd
  have e3 := signMask_toNat w s hw256 hs0 hs
  have e4 := signMask_toNat w d hw256 hd0 hd
  unfold bsValue
  simp only [hw8]
  generalize (uintWord w).shr ((uintWord w).not ((uintWord w).lit 0)) (u8 (w + 256 - s)) = sm at *
  generalize (uintWord w).shr ((uintWord w).not ((uintWord w).lit 0)) (u8 (w + 256 - d)) = dm at *
  generalize (uintWord w).shl ((uintWord w).lit 1) (u8 (s + 255)) = ss at *
  generalize (uintWord w).shl ((uintWord w).lit 1) (u8 (d + 255)) = ds at *
  have e5 := shr1_toNat w d hw1 hd0 dm e2
  generalize (uintWord w).shr dm 1 = dh at *
  have e6 : ((uintWord w).and ((uintWord w).shr ((uintWord w).load bs) sh) sm).toNat = leNat bs / 2 ^ sh % 2 ^ s := by
    have h2 : ¬ sh ≥ w := by omega
    simp only [uintWord, h2, if_false]
    rw [BitVec.toNat_and, BitVec.toNat_ushiftRight, BitVec.toNat_ofNat, Nat.mod_eq_of_lt hL, e1,
      Nat.and_two_pow_sub_one_eq_mod, Nat.shiftRight_eq_div_pow]
  generalize (uintWord w).and ((uintWord w).shr ((uintWord w).load bs) sh) sm = sc at *
  have hSlt : sc.toNat < 2 ^ s := by rw [e6]; exact Nat.mod_lt _ (Nat.pow_pos (by omega))
  rw [← e6]
  generalize hS : sc.toNat = S at *
  have hneg : (sSigned && (uintWord w).ne ((uintWord w).and sc ss) ((uintWord w).lit 0)) = decide (sSigned = true ∧ 2 ^ (s - 1) ≤ S) := by
    have hb : (uintWord w).ne ((uintWord w).and sc ss) ((uintWord w).lit 0) = decide (2 ^ (s - 1) ≤ S) := by
      simp only [uintWord]
      rw [decide_eq_decide, ← sign_bit S s hs0 hSlt, ← hS, ← e3, ← BitVec.toNat_and]
      constructor
      · intro h h'
        exact h (BitVec.eq_of_toNat_eq (by simpa using h'))
      · intro h h'
        rw [h'] at h
        simp at h
    rw [hb]
    cases sSigned <;> simp
  simp only [hneg]
  unfold stored
  by_cases hn : sSigned = true ∧ 2 ^ (s - 1) ≤ S
  · have hn' : decide (sSigned = true ∧ 2 ^ (s - 1) ≤ S) = true := by simp only [hn, and_self, decide_true]
    simp only [hn', if_true]
    rw [if_pos hn]
    cases dSigned with
    | false => simp [uintWord]
    | true =>
      simp only [Bool.not_true, Bool.false_eq_true, if_false, if_true]
      by_cases hsd : s > d
      · simp only [hsd, if_true]
        have hle : 2 ^ (d - 1) ≤ 2 ^ s := Nat.pow_le_pow_right (by omega) (by omega)
        have hmask : ((uintWord w).sub sm dh).toNat = 2 ^ s - 2 ^ (d - 1) := by
          simp only [uintWord]
          rw [BitVec.toNat_sub, e1, e5]
          rw [show 2 ^ w - (2 ^ (d - 1) - 1) + (2 ^ s - 1) = 2 ^ w + (2 ^ s - 2 ^ (d - 1)) by omega,
            Nat.add_mod_left, Nat.mod_eq_of_lt (by omega)]
        generalize (uintWord w).sub sm dh = mk at *
        have hne : (uintWord w).ne ((uintWord w).and sc mk) mk = decide (¬ 2 ^ s - 2 ^ (d - 1) ≤ S) := by
          simp only [uintWord]
          rw [decide_eq_decide, ← and_mask_eq S s (d - 1) hSlt (by omega), ← hS, ← hmask, ← BitVec.toNat_and]
          constructor
          · intro h h'
            exact h (BitVec.eq_of_toNat_eq h')
          · intro h h'
            rw [h'] at h
            exact h rfl
        rw [hne]
        by_cases hc : 2 ^ s - 2 ^ (d - 1) ≤ S
        · simp only [hc, not_true, decide_false, Bool.false_eq_true, if_false, if_true, hS]
        · simp only [hc, not_false_eq_true, decide_true, if_false, if_true, e4]
      · simp only [hsd, if_false]
        have hle : 2 ^ s ≤ 2 ^ d := Nat.pow_le_pow_right (by omega) (by omega)
        have hmask : ((uintWord w).sub dm sm).toNat = 2 ^ d - 2 ^ s := by
          simp only [uintWord]
          rw [BitVec.toNat_sub, e1, e2]
          rw [show 2 ^ w - (2 ^ s - 1) + (2 ^ d - 1) = 2 ^ w + (2 ^ d - 2 ^ s) by omega,
            Nat.add_mod_left, Nat.mod_eq_of_lt (by omega)]
        have : ((uintWord w).or sc ((uintWord w).sub dm sm)).toNat = sc.toNat ||| ((uintWord w).sub dm sm).toNat := by
          simp only [uintWord]
          rw [BitVec.toNat_or]
        rw [this, hmask, hS, or_mask S s d hSlt (by omega)]
  · have hn' : decide (sSigned = true ∧ 2 ^ (s - 1) ≤ S) = false := by simp only [hn, decide_false]
    simp only [hn', Bool.false_eq_true, if_false]
    rw [if_neg hn]
    have hgt : ∀ m : BitVec w, (uintWord w).gt sc m = decide (S > m.toNat) := by
      intro m
      simp only [uintWord, BitVec.ult, hS, gt_iff_lt]
    cases dSigned with
    | false =>
      simp only [Bool.false_eq_true, if_false, hgt, e2, decide_eq_true_eq]
      split
      · rw [e2]
      · exact hS
    | true =>
      simp only [if_true, hgt, e5, decide_eq_true_eq]
      split
      · rw [e5]
      · exact hS

/-- Bit `j` of the word that is written. -/
theorem bsMerge_testBit (w : Nat) (hw : w = 8 ∨ w = 16 ∨ w = 32 ∨ w = 64 ∨ w = 128) (v : BitVec w) (bs : List Byte)
    (sh d : Nat) (hd0 : 0 < d) (hd : sh + d ≤ w) (hbs : 8 * bs.length ≤ w) (j : Nat) (hj : j < w) :
    (bsMerge (uintWord w) v bs sh d).toNat.testBit j
      = ((decide (sh ≤ j) && v.toNat.testBit (j - sh)) ||
          (!(decide (sh ≤ j) && decide (j < sh + d)) && Spec.BitConvert.bit bs j)) := by
  have hw8 : u8 ((uintWord w).size * 8) = w := by
    rcases hw with rfl | rfl | rfl | rfl | rfl <;> rfl
  have hw256 : w < 256 := by omega
  have hL : leNat bs < 2 ^ w := Nat.lt_of_lt_of_le (leNat_lt bs) (Nat.pow_le_pow_right (by omega) hbs)
  have e2 := mask_toNat w d hw256 (by omega)
  unfold bsMerge
  simp only [hw8]
  generalize (uintWord w).shr ((uintWord w).not ((uintWord w).lit 0)) (u8 (w + 256 - d)) = dm at *
  have h2 : ¬ sh ≥ w := by omega
  have hdm : ∀ k, dm.getLsbD k = decide (k < d) := by
    intro k
    rw [BitVec.getLsbD, e2, Nat.testBit_two_pow_sub_one]
  simp only [uintWord, h2, if_false]
  rw [← BitVec.getLsbD, BitVec.getLsbD_or, BitVec.getLsbD_shiftLeft, BitVec.getLsbD_and, BitVec.getLsbD_not,
    BitVec.getLsbD_shiftLeft, hdm, BitVec.getLsbD_ofNat, leNat_testBit]
  have h3 : v.getLsbD (j - sh) = v.toNat.testBit (j - sh) := rfl
  rw [h3]
  by_cases h4 : sh ≤ j
  · have h5 : ¬ j < sh := by omega
    by_cases h6 : j < sh + d
    · have h7 : j - sh < d := by omega
      simp [hj, h4, h5, h6, h7]
    · have h7 : ¬ j - sh < d := by omega
      simp [hj, h4, h5, h6, h7]
  · have h5 : j < sh := by omega
    simp [hj, h4, h5]

/-- **`BSToBS`, bit by bit.** -/
theorem bsToBS_bits (w : Nat) (hw : w = 8 ∨ w = 16 ∨ w = 32 ∨ w = 64 ∨ w = 128) (mem : Mem)
    (dp dsh d : Nat) (dSigned : Bool) (sp ssh s : Nat) (sSigned : Bool)
    (hd0 : 0 < d) (hs0 : 0 < s) (hdw : dsh + d ≤ w) (hsw : ssh + s ≤ w)
    (hdm : 8 * dp + dsh + d ≤ 8 * mem.length) (hsm : 8 * sp + ssh + s ≤ 8 * mem.length) :
    ∃ mem', bsToBS (uintWord w) mem dp dsh d dSigned sp ssh s sSigned = some mem' ∧ mem'.length = mem.length ∧
      ∀ i, Spec.BitConvert.bit mem' i
        = if 8 * dp + dsh ≤ i ∧ i < 8 * dp + dsh + d then
            (stored d dSigned s sSigned (Spec.BitConvert.bits mem (8 * sp + ssh) s)).testBit (i - (8 * dp + dsh))
          else if 8 * dp + dsh + d ≤ i ∧ i < 8 * (dp + (d + dsh + 7) / 8) then
            (stored d dSigned s sSigned (Spec.BitConvert.bits mem (8 * sp + ssh) s)).testBit (i - (8 * dp + dsh))
              || Spec.BitConvert.bit mem i
          else Spec.BitConvert.bit mem i := by
  have hsz : (uintWord w).size = w / 8 := rfl
  have hw8 : 8 * (w / 8) = w := by omega
  have hr1 : sp + (s + ssh + 7) / 8 ≤ mem.length ∧ (s + ssh + 7) / 8 ≤ (uintWord w).size := by
    rw [hsz]; omega
  have hr2 : dp + (d + dsh + 7) / 8 ≤ mem.length ∧ (d + dsh + 7) / 8 ≤ (uintWord w).size := by
    rw [hsz]; omega
  have hk : (d + dsh + 7) / 8 ≤ w / 8 := hr2.2
  have hk1 : (s + ssh + 7) / 8 ≤ w / 8 := hr1.2
  unfold bsToBS
  simp only [readBytes, hr1, hr2, and_self, if_true, Option.bind_eq_bind, Option.bind_some]
  generalize hsb : (mem.drop sp).take ((s + ssh + 7) / 8) = sb
  generalize hdb : (mem.drop dp).take ((d + dsh + 7) / 8) = db
  have hsl : sb.length = (s + ssh + 7) / 8 := by rw [← hsb]; simp; omega
  have hdl : db.length = (d + dsh + 7) / 8 := by rw [← hdb]; simp; omega
  have hval := bsValue_toNat w hw d s hd0 (by omega) hs0 dSigned sSigned sb ssh hsw (by rw [hsl]; omega)
  have hS : leNat sb / 2 ^ ssh % 2 ^ s = Spec.BitConvert.bits mem (8 * sp + ssh) s := by
    apply Nat.eq_of_testBit_eq
    intro i
    rw [bits_testBit, Nat.testBit_mod_two_pow, Nat.testBit_div_two_pow, leNat_testBit, ← hsb, bit_slice _ _ _ _ hr1.1]
    by_cases hi : i < s
    · have h1 : i + ssh < 8 * ((s + ssh + 7) / 8) := by omega
      simp only [hi, h1, decide_true, Bool.true_and]
      congr 1; omega
    · simp [hi]
  rw [hS] at hval
  generalize hv : bsValue (uintWord w) d dSigned sb ssh s sSigned = v at *
  have hmerge := bsMerge_testBit w hw v db dsh d hd0 hdw (by rw [hdl]; omega)
  generalize hR : bsMerge (uintWord w) v db dsh d = R at *
  have hst : (uintWord w).store R ((d + dsh + 7) / 8) = leBytes ((d + dsh + 7) / 8) R.toNat := rfl
  rw [hst]
  have hlen := leBytes_length ((d + dsh + 7) / 8) R.toNat
  have hwr : dp + (leBytes ((d + dsh + 7) / 8) R.toNat).length ≤ mem.length := by rw [hlen]; exact hr2.1
  refine ⟨mem.take dp ++ leBytes ((d + dsh + 7) / 8) R.toNat ++ mem.drop (dp + (leBytes ((d + dsh + 7) / 8) R.toNat).length),
    by simp only [writeBytes, hwr, if_true], ?_, ?_⟩
  · simp only [List.length_append, List.length_take, List.length_drop]; omega
  · intro i
    rw [bit_write _ _ _ _ hwr, hlen]
    by_cases hin : 8 * dp ≤ i ∧ i < 8 * (dp + (d + dsh + 7) / 8)
    · rw [if_pos hin, leBytes_bit _ _ _ (by omega), hmerge _ (by omega), hval, ← hdb, bit_slice _ _ _ _ hr2.1]
      have h1 : i - 8 * dp < 8 * ((d + dsh + 7) / 8) := by omega
      have h2 : 8 * dp + (i - 8 * dp) = i := by omega
      simp only [h1, h2, decide_true, Bool.true_and]
      have h3 : i - 8 * dp - dsh = i - (8 * dp + dsh) := by omega
      rw [h3]
      by_cases hf : 8 * dp + dsh ≤ i
      · have h4 : dsh ≤ i - 8 * dp := by omega
        by_cases hg : i < 8 * dp + dsh + d
        · have h5 : i - 8 * dp < dsh + d := by omega
          have h6 : 8 * dp + dsh ≤ i ∧ i < 8 * dp + dsh + d := ⟨hf, hg⟩
          rw [if_pos h6]
          simp [h4, h5]
        · have h5 : ¬ i - 8 * dp < dsh + d := by omega
          have h6 : ¬ (8 * dp + dsh ≤ i ∧ i < 8 * dp + dsh + d) := by omega
          have h7 : 8 * dp + dsh + d ≤ i ∧ i < 8 * (dp + (d + dsh + 7) / 8) := by omega
          rw [if_neg h6, if_pos h7]
          simp [h4, h5]
      · have h4 : ¬ dsh ≤ i - 8 * dp := by omega
        have h6 : ¬ (8 * dp + dsh ≤ i ∧ i < 8 * dp + dsh + d) := by omega
        have h7 : ¬ (8 * dp + dsh + d ≤ i ∧ i < 8 * (dp + (d + dsh + 7) / 8)) := by omega
        rw [if_neg h6, if_neg h7]
        simp [h4]
    · rw [if_neg hin]
      have h6 : ¬ (8 * dp + dsh ≤ i ∧ i < 8 * dp + dsh + d) := by omega
      have h7 : ¬ (8 * dp + dsh + d ≤ i ∧ i < 8 * (dp + (d + dsh + 7) / 8)) := by omega
      rw [if_neg h6, if_neg h7]

end Verif.BitConvert
