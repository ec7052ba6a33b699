import Verif.Proof.BitConvert
set_option linter.unusedSimpArgs false
namespace Verif.BitConvert
open Verif.DoubleInteger

/-! ## The stored bits are those of the nearest value -/

/-- The value of `n` bits. -/
def decode (n : Nat) (signed : Bool) (S : Nat) : Int :=
  if signed = true ∧ 2 ^ (n - 1) ≤ S then (S : Int) - 2 ^ n else S

theorem pow_split (n : Nat) (h : 0 < n) : 2 ^ n = 2 * 2 ^ (n - 1) := by
  rw [← Nat.pow_succ', show (n - 1).succ = n by omega]

theorem ipow (n : Nat) : (2 : Int) ^ n = ((2 ^ n : Nat) : Int) := by push_cast; rfl

theorem stored_clamp (d : Nat) (dS : Bool) (s : Nat) (sS : Bool) (S : Nat) (hd0 : 0 < d) (hs0 : 0 < s) (hS : S < 2 ^ s) :
    decode d dS (stored d dS s sS S % 2 ^ d) = Spec.BitConvert.clamp d dS (decode s sS S) := by
  have hd2 := pow_split d hd0
  have hs2 := pow_split s hs0
  have hpd : 0 < 2 ^ (d - 1) := Nat.pow_pos (by omega)
  have hps : 0 < 2 ^ (s - 1) := Nat.pow_pos (by omega)
  unfold stored Spec.BitConvert.clamp Spec.BitConvert.least Spec.BitConvert.greatest
  by_cases hn : sS = true ∧ 2 ^ (s - 1) ≤ S
  · have hX : decode s sS S = (S : Int) - 2 ^ s := by unfold decode; rw [if_pos hn]
    rw [if_pos hn, hX]
    have hps' := hn.2
    cases dS with
    | false =>
      simp only [Bool.false_eq_true, if_false, Nat.zero_mod, decode, false_and]
      rw [ipow s]
      have : (S : Int) - ((2 ^ s : Nat) : Int) < 0 := by omega
      rw [if_pos this]
      rfl
    | true =>
      simp only [if_true]
      by_cases hsd : s > d
      · simp only [hsd, if_true]
        have hsp : 2 ^ s = 2 ^ (s - d) * 2 ^ d := by rw [← Nat.pow_add, show s - d + d = s by omega]
        have hle : 2 ^ d ≤ 2 ^ s := Nat.pow_le_pow_right (by omega) (by omega)
        by_cases hc : 2 ^ s - 2 ^ (d - 1) ≤ S
        · simp only [hc, if_true]
          have hq : 0 < 2 ^ (s - d) := Nat.pow_pos (by omega)
          have hm : S % 2 ^ d = 2 ^ d - (2 ^ s - S) := by
            have hS' : S = 2 ^ d * (2 ^ (s - d) - 1) + (2 ^ d - (2 ^ s - S)) := by
              have : 2 ^ d * (2 ^ (s - d) - 1) = 2 ^ s - 2 ^ d := by
                rw [Nat.mul_sub, Nat.mul_one, Nat.mul_comm, ← hsp]
              rw [this]; omega
            have := Nat.mul_add_mod (2 ^ d) (2 ^ (s - d) - 1) (2 ^ d - (2 ^ s - S))
            rw [← hS'] at this
            rw [this, Nat.mod_eq_of_lt (by omega)]
          rw [hm]
          unfold decode
          have h1 : (true = true ∧ 2 ^ (d - 1) ≤ 2 ^ d - (2 ^ s - S)) := ⟨rfl, by omega⟩
          rw [if_pos h1, ipow s, ipow d, ipow (d - 1)]
          split
          · omega
          · split <;> omega
        · simp only [hc, if_false]
          rw [Nat.mod_eq_of_lt (by omega)]
          unfold decode
          rw [if_pos (by exact ⟨rfl, Nat.le_refl _⟩), ipow s, ipow d, ipow (d - 1)]
          split
          · omega
          · omega
      · simp only [hsd, if_false]
        have hle : 2 ^ s ≤ 2 ^ d := Nat.pow_le_pow_right (by omega) (by omega)
        have hle' : 2 ^ (s - 1) ≤ 2 ^ (d - 1) := Nat.pow_le_pow_right (by omega) (by omega)
        rw [Nat.mod_eq_of_lt (by omega)]
        unfold decode
        rw [if_pos ⟨rfl, by omega⟩, ipow s, ipow d, ipow (d - 1)]
        split
        · omega
        · split <;> omega
  · have hX : decode s sS S = (S : Int) := by unfold decode; rw [if_neg hn]
    rw [if_neg hn, hX]
    cases dS with
    | false =>
      simp only [Bool.false_eq_true, if_false]
      have h0 : ¬ (S : Int) < 0 := by omega
      rw [if_neg h0]
      have hdec : ∀ x, decode d false x = (x : Int) := by intro x; simp [decode]
      rw [hdec, ipow d]
      by_cases hc : S > 2 ^ d - 1
      · have hc' : ((2 ^ d : Nat) : Int) - 1 < (S : Int) := by omega
        rw [if_pos hc, if_pos hc', Nat.mod_eq_of_lt (by omega)]
        omega
      · have hc' : ¬ ((2 ^ d : Nat) : Int) - 1 < (S : Int) := by omega
        rw [if_neg hc, if_neg hc', Nat.mod_eq_of_lt (by omega)]
    | true =>
      simp only [if_true]
      have h0 : ¬ (S : Int) < - 2 ^ (d - 1) := by
        rw [ipow (d - 1)]; omega
      rw [if_neg h0, ipow (d - 1)]
      by_cases hc : S > 2 ^ (d - 1) - 1
      · have hc' : ((2 ^ (d - 1) : Nat) : Int) - 1 < (S : Int) := by omega
        rw [if_pos hc, if_pos hc', Nat.mod_eq_of_lt (by omega)]
        have h1 : ¬ (true = true ∧ 2 ^ (d - 1) ≤ 2 ^ (d - 1) - 1) := by omega
        unfold decode
        rw [if_neg h1]
        omega
      · have hc' : ¬ ((2 ^ (d - 1) : Nat) : Int) - 1 < (S : Int) := by omega
        rw [if_neg hc, if_neg hc', Nat.mod_eq_of_lt (by omega)]
        have h1 : ¬ (true = true ∧ 2 ^ (d - 1) ≤ S) := by omega
        unfold decode
        rw [if_neg h1]

theorem stored_lt (d : Nat) (dS : Bool) (s : Nat) (sS : Bool) (S : Nat) (hd0 : 0 < d) (hs0 : 0 < s) (hS : S < 2 ^ s)
    (h : ¬ (sS = true ∧ dS = true ∧ d < s ∧ decode s sS S < 0 ∧ -2 ^ (d - 1) ≤ decode s sS S)) :
    stored d dS s sS S < 2 ^ d := by
  have hd2 := pow_split d hd0
  have hs2 := pow_split s hs0
  have hpd : 0 < 2 ^ (d - 1) := Nat.pow_pos (by omega)
  unfold stored
  by_cases hn : sS = true ∧ 2 ^ (s - 1) ≤ S
  · have hX : decode s sS S = (S : Int) - 2 ^ s := by unfold decode; rw [if_pos hn]
    rw [if_pos hn]
    cases dS with
    | false => simp only [Bool.false_eq_true, if_false]; omega
    | true =>
      simp only [if_true]
      by_cases hsd : s > d
      · simp only [hsd, if_true]
        have hle : 2 ^ d ≤ 2 ^ s := Nat.pow_le_pow_right (by omega) (by omega)
        have hc : ¬ 2 ^ s - 2 ^ (d - 1) ≤ S := by
          intro hc
          apply h
          rw [hX, ipow s, ipow (d - 1)]
          exact ⟨hn.1, rfl, hsd, by omega, by omega⟩
        rw [if_neg hc]
        omega
      · simp only [hsd, if_false]
        have hle : 2 ^ s ≤ 2 ^ d := Nat.pow_le_pow_right (by omega) (by omega)
        omega
  · rw [if_neg hn]
    cases dS with
    | false => simp only [Bool.false_eq_true, if_false]; split <;> omega
    | true => simp only [if_true]; split <;> omega

/-- In the other case the bits above the field, up to the size of the source, are ones. -/
theorem stored_ones (d : Nat) (s : Nat) (S : Nat) (hd0 : 0 < d) (hsd : d < s) (hS : S < 2 ^ s)
    (h0 : decode s true S < 0) (h1 : -2 ^ (d - 1) ≤ decode s true S) (k : Nat) (hk : d ≤ k) (hks : k < s) :
    (stored d true s true S).testBit k = true := by
  have hs2 := pow_split s (by omega)
  have hd2 := pow_split d (by omega)
  have hn : (true = true ∧ 2 ^ (s - 1) ≤ S) := by
    refine ⟨rfl, ?_⟩
    unfold decode at h0
    split at h0
    · rename_i h; exact h.2
    · omega
  have hX : decode s true S = (S : Int) - 2 ^ s := by unfold decode; rw [if_pos hn]
  rw [hX, ipow s, ipow (d - 1)] at h1
  have hle : 2 ^ d ≤ 2 ^ s := Nat.pow_le_pow_right (by omega) (by omega)
  have hc : 2 ^ s - 2 ^ (d - 1) ≤ S := by omega
  unfold stored
  rw [if_pos hn]
  simp only [if_true, hsd, gt_iff_lt, hc]
  have hm := (and_mask_eq S s (d - 1) hS (by omega)).2 hc
  have : (S &&& (2 ^ s - 2 ^ (d - 1))).testBit k = (2 ^ s - 2 ^ (d - 1)).testBit k := by rw [hm]
  rw [Nat.testBit_and] at this
  have hbit : (2 ^ s - 2 ^ (d - 1)).testBit k = true := by
    have h1 : 2 ^ s - 2 ^ (d - 1) = (2 ^ (s - (d - 1)) - 1) <<< (d - 1) := by
      rw [Nat.shiftLeft_eq, Nat.sub_mul, Nat.one_mul, ← Nat.pow_add, show s - (d - 1) + (d - 1) = s by omega]
    rw [h1, Nat.testBit_shiftLeft, Nat.testBit_two_pow_sub_one]
    have h2 : d - 1 ≤ k := by omega
    have h3 : k - (d - 1) < s - (d - 1) := by omega
    simp [h2, h3]
  rw [hbit, Bool.and_true] at this
  exact this

/-! ## Values of fields -/

theorem bits_lt (mem : List Byte) (a n : Nat) : Spec.BitConvert.bits mem a n < 2 ^ n := by
  rw [spec_bits]; exact Nat.mod_lt _ (Nat.pow_pos (by omega))

theorem value_decode (mem : List Byte) (a n : Nat) (hn : 0 < n) (signed : Bool) :
    Spec.BitConvert.value mem a n signed = decode n signed (Spec.BitConvert.bits mem a n) := by
  have h1 := bits_testBit mem a n (n - 1)
  have h2 : n - 1 < n := by omega
  have hlt := bits_lt mem a n
  simp only [h2, decide_true, Bool.true_and] at h1
  have h3 : Spec.BitConvert.bit mem (a + (n - 1)) = decide (2 ^ (n - 1) ≤ Spec.BitConvert.bits mem a n) := by
    rw [← h1]
    have := sign_bit _ n hn hlt
    have hp := pow_split n hn
    rw [Nat.testBit_eq_decide_div_mod_eq, decide_eq_decide]
    have hpos : 0 < 2 ^ (n - 1) := Nat.pow_pos (by omega)
    by_cases hc : 2 ^ (n - 1) ≤ Spec.BitConvert.bits mem a n
    · have h3 : Spec.BitConvert.bits mem a n / 2 ^ (n - 1) = 1 := by apply Nat.div_eq_of_lt_le <;> omega
      simp [h3, hc]
    · have h3 : Spec.BitConvert.bits mem a n / 2 ^ (n - 1) = 0 := Nat.div_eq_of_lt (by omega)
      simp [h3, hc]
  unfold Spec.BitConvert.value decode
  rw [h3]
  cases signed <;> simp

theorem bits_of_bit (mem : List Byte) (a n V : Nat)
    (h : ∀ i, a ≤ i → i < a + n → Spec.BitConvert.bit mem i = V.testBit (i - a)) :
    Spec.BitConvert.bits mem a n = V % 2 ^ n := by
  apply Nat.eq_of_testBit_eq
  intro i
  rw [bits_testBit, Nat.testBit_mod_two_pow]
  by_cases hi : i < n
  · have := h (a + i) (by omega) (by omega)
    rw [this, Nat.add_sub_cancel_left]
  · simp [hi]

/-! ## The type of sixteen bytes is as the others -/

theorem bsValue_hom (d s sh : Nat) (dS sS : Bool) (bs : List Byte) (hbs : bs.length ≤ 16) :
    bv (bsValue dblWord d dS bs sh s sS) = bsValue (uintWord (64 + 64)) d dS bs sh s sS := by
  have hz : bv (⟨0, 0⟩ : Dbl 64) = 0 := by
    apply BitVec.eq_of_toNat_eq; rw [bv_toNat]; simp [Spec.DoubleInteger.raw]
  have hshr : ∀ (x : Dbl 64) (k : Nat), bv (dblWord.shr x k) = (uintWord (64 + 64)).shr (bv x) k := by
    intro x k
    simp only [dblWord, uintWord, logicalShrSafe]
    by_cases h : k ≥ 2 * 64
    · have h' : k ≥ 64 + 64 := by omega
      rw [if_pos h, if_pos h', hz]
    · have h' : ¬ k ≥ 64 + 64 := by omega
      rw [if_neg h, if_neg h']
      exact bv_shr x k
  have hshl : ∀ (x : Dbl 64) (k : Nat), bv (dblWord.shl x k) = (uintWord (64 + 64)).shl (bv x) k := by
    intro x k
    simp only [dblWord, uintWord, shlSafe]
    by_cases h : k ≥ 2 * 64
    · have h' : k ≥ 64 + 64 := by omega
      rw [if_pos h, if_pos h', hz]
    · have h' : ¬ k ≥ 64 + 64 := by omega
      rw [if_neg h, if_neg h']
      exact bv_shl x k
  have hl0 : bv (dblWord.lit 0) = (uintWord (64 + 64)).lit 0 := by decide
  have hl1 : bv (dblWord.lit 1) = (uintWord (64 + 64)).lit 1 := by decide
  have hnot : ∀ x, bv (dblWord.not x) = (uintWord (64 + 64)).not (bv x) := fun x => bv_not x
  have hand : ∀ x y, bv (dblWord.and x y) = (uintWord (64 + 64)).and (bv x) (bv y) := fun x y => bv_and x y
  have hor : ∀ x y, bv (dblWord.or x y) = (uintWord (64 + 64)).or (bv x) (bv y) := fun x y => bv_or x y
  have hsub : ∀ x y, bv (dblWord.sub x y) = (uintWord (64 + 64)).sub (bv x) (bv y) :=
    fun x y => bv_sub false (by omega) x y
  have hgt : ∀ x y, dblWord.gt x y = (uintWord (64 + 64)).gt (bv x) (bv y) := by
    intro x y
    simp only [dblWord, uintWord, BitVec.ult]
    rw [gt_value, value_unsigned, value_unsigned, decide_eq_decide]
    omega
  have hne : ∀ x y, dblWord.ne x y = (uintWord (64 + 64)).ne (bv x) (bv y) := by
    intro x y
    simp only [dblWord, uintWord]
    rw [Bool.eq_iff_iff, ne_iff, decide_eq_true_iff]
  have hload : bv (dblWord.load bs) = (uintWord (64 + 64)).load bs := by
    simp only [dblWord, uintWord]
    apply BitVec.eq_of_getLsbD_eq
    intro i hi
    rw [bv_getLsbD, BitVec.getLsbD_ofNat, leNat_testBit]
    have e1 : ∀ k, Spec.BitConvert.bit (bs.take 8) k = (decide (k < 64) && Spec.BitConvert.bit bs k) := by
      intro k
      by_cases hk : k < 64
      · have h3 : k / 8 < 8 := by omega
        simp only [Spec.BitConvert.bit, List.getD_eq_getElem?_getD, List.getElem?_take, h3, if_true, hk, decide_true,
          Bool.true_and]
      · have h3 : ¬ k / 8 < 8 := by omega
        simp [Spec.BitConvert.bit, List.getD_eq_getElem?_getD, List.getElem?_take, h3, hk]
    have e2 : ∀ k, Spec.BitConvert.bit (bs.drop 8) k = Spec.BitConvert.bit bs (64 + k) := by
      intro k
      have h1 : (64 + k) / 8 = 8 + k / 8 := by omega
      have h2 : (64 + k) % 8 = k % 8 := by omega
      simp only [Spec.BitConvert.bit, List.getD_eq_getElem?_getD, List.getElem?_drop, h1, h2]
    by_cases h : i < 64
    · rw [if_pos h, BitVec.getLsbD_ofNat, leNat_testBit, e1]
      simp [h, hi]
    · rw [if_neg h, BitVec.getLsbD_ofNat, leNat_testBit, e2]
      have h2 : i - 64 < 64 := by omega
      have h3 : 64 + (i - 64) = i := by omega
      rw [h3]
      simp only [h2, hi, decide_true, Bool.true_and]
      rw [BitVec.getLsbD_ofNat, leNat_testBit]
      simp only [hi, decide_true, Bool.true_and]
  have hite : ∀ (b : Bool) (x y : Dbl 64), bv (if b = true then x else y) = if b = true then bv x else bv y := by
    intro b x y; cases b <;> rfl
  have hitep : ∀ (p : Prop) [Decidable p] (x y : Dbl 64), bv (if p then x else y) = if p then bv x else bv y := by
    intro p _ x y; split <;> rfl
  have hsz : dblWord.size = (uintWord (64 + 64)).size := rfl
  unfold bsValue
  simp only [hitep, hgt, hne, hshr, hshl, hand, hor, hsub, hnot, hl0, hl1, hload, hsz]

theorem leBytes_append (k j x : Nat) : leBytes (k + j) x = leBytes k x ++ leBytes j (x / 2 ^ (8 * k)) := by
  induction k generalizing x with
  | zero => simp [leBytes]
  | succ k ih =>
    rw [show k + 1 + j = (k + j) + 1 by omega]
    simp only [leBytes, List.cons_append]
    rw [ih, Nat.div_div_eq_div_mul, show (256 : Nat) = 2 ^ 8 by rfl, ← Nat.pow_add, show 8 + 8 * k = 8 * (k + 1) by omega]

theorem leBytes_mod (k x y : Nat) (h : x % 2 ^ (8 * k) = y % 2 ^ (8 * k)) : leBytes k x = leBytes k y := by
  induction k generalizing x y with
  | zero => rfl
  | succ k ih =>
    have h1 : x % 256 = y % 256 := by
      have e : ∀ z, z % 2 ^ (8 * (k + 1)) % 256 = z % 256 := by
        intro z
        apply Nat.mod_mod_of_dvd
        exact Nat.pow_dvd_pow 2 (show 8 ≤ 8 * (k + 1) by omega)
      rw [← e x, ← e y, h]
    have h2 : x / 256 % 2 ^ (8 * k) = y / 256 % 2 ^ (8 * k) := by
      have e : ∀ z, z / 256 % 2 ^ (8 * k) = z % 2 ^ (8 * (k + 1)) / 256 := by
        intro z
        rw [show 8 * (k + 1) = 8 + 8 * k by omega, Nat.pow_add, Nat.mod_mul_right_div_self]
      rw [e x, e y, h]
    simp only [leBytes]
    rw [ih _ _ h2]
    congr 1
    apply BitVec.eq_of_toNat_eq
    simpa using h1

theorem leBytes_take (n k x : Nat) (h : k ≤ n) : (leBytes n x).take k = leBytes k x := by
  have := leBytes_append k (n - k) x
  rw [show k + (n - k) = n by omega] at this
  rw [this, List.take_left' (leBytes_length k x)]

theorem store_hom (a : Dbl 64) (k : Nat) (hk : k ≤ 16) :
    dblWord.store a k = (uintWord (64 + 64)).store (bv a) k := by
  simp only [dblWord, uintWord]
  rw [bv_toNat]
  have h1 : leBytes 16 (Spec.DoubleInteger.raw a.upper a.lower) = leBytes 8 a.lower.toNat ++ leBytes 8 a.upper.toNat := by
    have := leBytes_append 8 8 (Spec.DoubleInteger.raw a.upper a.lower)
    rw [show 8 + 8 = 16 by rfl] at this
    rw [this]
    have hl := a.lower.isLt
    have e1 : Spec.DoubleInteger.raw a.upper a.lower % 2 ^ (8 * 8) = a.lower.toNat % 2 ^ (8 * 8) := by
      unfold Spec.DoubleInteger.raw
      rw [show 8 * 8 = 64 by rfl, Nat.mul_comm, Nat.mul_add_mod]
    have e2 : Spec.DoubleInteger.raw a.upper a.lower / 2 ^ (8 * 8) = a.upper.toNat := by
      unfold Spec.DoubleInteger.raw
      rw [show 8 * 8 = 64 by rfl, Nat.mul_comm, Nat.mul_add_div (by omega), Nat.div_eq_of_lt hl, Nat.add_zero]
    rw [leBytes_mod 8 _ _ e1, e2]
  rw [← h1, leBytes_take _ _ _ hk]

theorem bsMerge_hom (v : Dbl 64) (bs : List Byte) (hbs : bs.length ≤ 16) (sh d : Nat) :
    bv (bsMerge dblWord v bs sh d) = bsMerge (uintWord (64 + 64)) (bv v) bs sh d := by
  have hz : bv (⟨0, 0⟩ : Dbl 64) = 0 := by
    apply BitVec.eq_of_toNat_eq; rw [bv_toNat]; simp [Spec.DoubleInteger.raw]
  have hshr : ∀ (x : Dbl 64) (k : Nat), bv (dblWord.shr x k) = (uintWord (64 + 64)).shr (bv x) k := by
    intro x k
    simp only [dblWord, uintWord, logicalShrSafe]
    by_cases h : k ≥ 2 * 64
    · have h' : k ≥ 64 + 64 := by omega
      rw [if_pos h, if_pos h', hz]
    · have h' : ¬ k ≥ 64 + 64 := by omega
      rw [if_neg h, if_neg h']
      exact bv_shr x k
  have hshl : ∀ (x : Dbl 64) (k : Nat), bv (dblWord.shl x k) = (uintWord (64 + 64)).shl (bv x) k := by
    intro x k
    simp only [dblWord, uintWord, shlSafe]
    by_cases h : k ≥ 2 * 64
    · have h' : k ≥ 64 + 64 := by omega
      rw [if_pos h, if_pos h', hz]
    · have h' : ¬ k ≥ 64 + 64 := by omega
      rw [if_neg h, if_neg h']
      exact bv_shl x k
  have hl0 : bv (dblWord.lit 0) = (uintWord (64 + 64)).lit 0 := by decide
  have hnot : ∀ x, bv (dblWord.not x) = (uintWord (64 + 64)).not (bv x) := fun x => bv_not x
  have hand : ∀ x y, bv (dblWord.and x y) = (uintWord (64 + 64)).and (bv x) (bv y) := fun x y => bv_and x y
  have hor : ∀ x y, bv (dblWord.or x y) = (uintWord (64 + 64)).or (bv x) (bv y) := fun x y => bv_or x y
  have hload : bv (dblWord.load bs) = (uintWord (64 + 64)).load bs := by
    simp only [dblWord, uintWord]
    apply BitVec.eq_of_getLsbD_eq
    intro i hi
    rw [bv_getLsbD, BitVec.getLsbD_ofNat, leNat_testBit]
    have e1 : ∀ k, Spec.BitConvert.bit (bs.take 8) k = (decide (k < 64) && Spec.BitConvert.bit bs k) := by
      intro k
      by_cases hk : k < 64
      · have h3 : k / 8 < 8 := by omega
        simp only [Spec.BitConvert.bit, List.getD_eq_getElem?_getD, List.getElem?_take, h3, if_true, hk, decide_true,
          Bool.true_and]
      · have h3 : ¬ k / 8 < 8 := by omega
        simp [Spec.BitConvert.bit, List.getD_eq_getElem?_getD, List.getElem?_take, h3, hk]
    have e2 : ∀ k, Spec.BitConvert.bit (bs.drop 8) k = Spec.BitConvert.bit bs (64 + k) := by
      intro k
      have h1 : (64 + k) / 8 = 8 + k / 8 := by omega
      have h2 : (64 + k) % 8 = k % 8 := by omega
      simp only [Spec.BitConvert.bit, List.getD_eq_getElem?_getD, List.getElem?_drop, h1, h2]
    by_cases h : i < 64
    · rw [if_pos h, BitVec.getLsbD_ofNat, leNat_testBit, e1]
      simp [h, hi]
    · rw [if_neg h, BitVec.getLsbD_ofNat, leNat_testBit, e2]
      have h2 : i - 64 < 64 := by omega
      have h3 : 64 + (i - 64) = i := by omega
      rw [h3]
      simp only [h2, hi, decide_true, Bool.true_and]
      rw [BitVec.getLsbD_ofNat, leNat_testBit]
      simp only [hi, decide_true, Bool.true_and]
  have hsz : dblWord.size = (uintWord (64 + 64)).size := rfl
  unfold bsMerge
  simp only [hshr, hshl, hand, hor, hnot, hl0, hload, hsz]

theorem bsToBS_dbl (mem : Mem) (dp dsh d : Nat) (dSigned : Bool) (sp ssh s : Nat) (sSigned : Bool) :
    bsToBS dblWord mem dp dsh d dSigned sp ssh s sSigned
      = bsToBS (uintWord 128) mem dp dsh d dSigned sp ssh s sSigned := by
  show bsToBS dblWord mem dp dsh d dSigned sp ssh s sSigned
      = bsToBS (uintWord (64 + 64)) mem dp dsh d dSigned sp ssh s sSigned
  have hsz : dblWord.size = 16 := rfl
  have hsz' : (uintWord (64 + 64)).size = 16 := rfl
  unfold bsToBS
  simp only [hsz, hsz', Option.bind_eq_bind]
  unfold readBytes
  by_cases h1 : sp + (s + ssh + 7) / 8 ≤ mem.length ∧ (s + ssh + 7) / 8 ≤ 16
  · rw [if_pos h1]
    simp only [Option.bind_some]
    by_cases h2 : dp + (d + dsh + 7) / 8 ≤ mem.length ∧ (d + dsh + 7) / 8 ≤ 16
    · rw [if_pos h2]
      simp only [Option.bind_some]
      rw [store_hom _ _ h2.2, bsMerge_hom _ _ (by simp; omega), bsValue_hom _ _ _ _ _ _ (by simp; omega)]
    · rw [if_neg h2]; rfl
  · rw [if_neg h1]; rfl

end Verif.BitConvert
