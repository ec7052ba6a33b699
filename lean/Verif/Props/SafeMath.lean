import Verif.Model.SafeMath
import Verif.Proof.IntType

namespace Verif.Spec.SafeMath
open Verif.IntType Verif.SafeMath

/-- Checked arithmetic: overflow is reported exactly when the exact result is above the largest value of the type,
underflow exactly when it is below the smallest, and otherwise the result is exact. -/
def Checked (sg : Bool) (w : Nat) (exact : Int) (r : BitVec w × Err) : Prop :=
  let t : Ty := ⟨w, sg⟩
  (r.2.overflow = true ↔ t.max < exact) ∧ (r.2.underflow = true ↔ exact < t.min) ∧
  (t.has exact → val sg r.1 = exact)

end Verif.Spec.SafeMath

namespace Verif.SafeMath
open Verif.IntType Verif.Spec.SafeMath

theorem and_signBit {w : Nat} (h : 0 < w) (a : BitVec w) : (a &&& signBit w) = 0 ↔ a.msb = false := by
  unfold signBit
  rw [BitVec.and_twoPow, BitVec.msb_eq_getLsbD_last]
  cases hb : a.getLsbD (w - 1) with
  | false => simp
  | true =>
    simp only [if_true, Bool.true_eq_false, iff_false]
    intro h0
    have := congrArg (fun x : BitVec w => x.getLsbD (w - 1)) h0
    simp [BitVec.getLsbD_twoPow] at this
    omega

theorem toInt_range {w : Nat} (h : 0 < w) (a : BitVec w) :
    -(2 : Int) ^ (w - 1) ≤ a.toInt ∧ a.toInt < 2 ^ (w - 1) := by
  constructor
  · exact BitVec.le_toInt a
  · exact BitVec.toInt_lt

theorem msb_iff {w : Nat} (a : BitVec w) : a.msb = true ↔ a.toInt < 0 := by
  rw [BitVec.msb_eq_toInt]; simp

theorem bmod_cases {w : Nat} (h : 0 < w) (x : Int) (h1 : -(4 * 2 ^ (w - 1)) ≤ 2 * x) (h2 : 2 * x < 4 * 2 ^ (w - 1)) :
    Int.bmod x (2 ^ w) = if x < -2 ^ (w - 1) then x + 2 ^ w else if x ≥ 2 ^ (w - 1) then x - 2 ^ w else x := by
  have hp := two_pow_pred h
  have h0 := two_pow_pos (w - 1)
  rw [Int.bmod_def]
  have : ((2 ^ w : Nat) : Int) = 2 * 2 ^ (w - 1) := by rw [← hp]; simp
  rw [this, hp]
  generalize (2 : Int) ^ (w - 1) = p at *
  rcases Int.lt_or_le x 0 with h3 | h3
  · have e : x % (2 * p) = x + 2 * p := by
      rw [← Int.add_emod_right]; exact Int.emod_eq_of_lt (by omega) (by omega)
    rw [e]; split <;> split <;> (try split) <;> omega
  · have e : x % (2 * p) = x := Int.emod_eq_of_lt h3 (by omega)
    rw [e]; split <;> split <;> (try split) <;> omega

/-- **C11 addition**, for every width and signedness. -/
theorem c11_addition (sg : Bool) {w : Nat} (hw : 0 < w) (a b : BitVec w) :
    Checked sg w (val sg a + val sg b) (addition sg a b) := by
  cases sg with
  | true =>
    have hp := two_pow_pred hw
    have h0 := two_pow_pos (w - 1)
    have ra := toInt_range hw a
    have rb := toInt_range hw b
    have hs : (a + b).toInt = _ := BitVec.toInt_add a b
    rw [bmod_cases hw _ (by omega) (by omega)] at hs
    have ma := msb_iff a
    have mb := msb_iff b
    have ms := msb_iff (a + b)
    simp only [Checked, addition, val, Ty.max, Ty.min, Ty.has, if_true, ne_eq, and_signBit hw, BitVec.msb_xor]
    generalize hA : a.toInt = x at *
    generalize hB : b.toInt = y at *
    generalize hS : (a + b).toInt = s at *
    generalize hx : a.msb = ba at *
    generalize hy : b.msb = bb at *
    generalize hz : (a + b).msb = bs at *
    generalize (2 : Int) ^ (w - 1) = p at *
    split at hs <;> (try split at hs) <;> cases ba <;> cases bb <;> cases bs <;> simp at * <;> omega
  | false =>
    have ha := a.isLt
    have hb := b.isLt
    have hs := BitVec.toNat_add a b
    have h0 : 0 < 2 ^ w := Nat.two_pow_pos w
    have hN : ((2 ^ w : Nat) : Int) = (2 : Int) ^ w := by simp
    have hs' : (a + b).toNat = if a.toNat + b.toNat < 2 ^ w then a.toNat + b.toNat else a.toNat + b.toNat - 2 ^ w := by
      rw [hs]
      split
      · exact Nat.mod_eq_of_lt ‹_›
      · rw [Nat.mod_eq_sub_mod (by omega), Nat.mod_eq_of_lt (by omega)]
    simp only [Checked, addition, val, Ty.max, Ty.min, Ty.has, Bool.false_eq_true, if_false, ← hN]
    generalize a.toNat = x at *
    generalize b.toNat = y at *
    generalize (a + b).toNat = s at *
    generalize 2 ^ w = p at *
    split at hs' <;> split <;> simp <;> omega

/-- **C11 subtraction**, for every width and signedness. -/
theorem c11_subtraction (sg : Bool) {w : Nat} (hw : 0 < w) (a b : BitVec w) :
    Checked sg w (val sg a - val sg b) (subtraction sg a b) := by
  cases sg with
  | true =>
    have hp := two_pow_pred hw
    have h0 := two_pow_pos (w - 1)
    have ra := toInt_range hw a
    have rb := toInt_range hw b
    have hs : (a - b).toInt = _ := BitVec.toInt_sub
    rw [bmod_cases hw _ (by omega) (by omega)] at hs
    have ma := msb_iff a
    have mb := msb_iff b
    have ms := msb_iff (a - b)
    simp only [Checked, subtraction, val, Ty.max, Ty.min, Ty.has, if_true, ne_eq, and_signBit hw, BitVec.msb_xor]
    generalize hA : a.toInt = x at *
    generalize hB : b.toInt = y at *
    generalize hS : (a - b).toInt = s at *
    generalize hx : a.msb = ba at *
    generalize hy : b.msb = bb at *
    generalize hz : (a - b).msb = bs at *
    generalize (2 : Int) ^ (w - 1) = p at *
    split at hs <;> (try split at hs) <;> cases ba <;> cases bb <;> cases bs <;> simp at * <;> omega
  | false =>
    have ha := a.isLt
    have hb := b.isLt
    have h0 : 0 < 2 ^ w := Nat.two_pow_pos w
    have hN : ((2 ^ w : Nat) : Int) = (2 : Int) ^ w := by simp
    have hs : b.toNat ≤ a.toNat → (a - b).toNat = a.toNat - b.toNat := by
      intro h
      rw [BitVec.toNat_sub, show 2 ^ w - b.toNat + a.toNat = (a.toNat - b.toNat) + 2 ^ w by omega,
        Nat.add_mod_right, Nat.mod_eq_of_lt (by omega)]
    simp only [Checked, subtraction, val, Ty.max, Ty.min, Ty.has, Bool.false_eq_true, if_false, ← hN]
    generalize a.toNat = x at *
    generalize b.toNat = y at *
    generalize (a - b).toNat = s at *
    generalize 2 ^ w = p at *
    split <;> simp <;> omega

/-- The two halves of `CompleteMultiply` make up the exact product. -/
theorem completeMultiply_signed {w : Nat} (hw : 0 < w) (a b : BitVec w) :
    (completeMultiply true a b).2.toInt * 2 ^ w + (completeMultiply true a b).1.toNat = a.toInt * b.toInt := by
  simp only [completeMultiply, if_true]
  generalize hr : a.signExtend (2 * w) * b.signExtend (2 * w) = r
  have ra := toInt_range hw a
  have rb := toInt_range hw b
  have hp := two_pow_pred hw
  have h0 := two_pow_pos (w - 1)
  have hsq : (2 : Int) ^ (2 * w - 1) = 2 * (2 ^ (w - 1) * 2 ^ (w - 1)) := by
    rw [← Int.pow_add, show 2 * w - 1 = (w - 1 + (w - 1)) + 1 by omega, Int.pow_succ]; omega
  have hprod : -(2 ^ (w - 1) * 2 ^ (w - 1)) ≤ a.toInt * b.toInt ∧ a.toInt * b.toInt ≤ 2 ^ (w - 1) * 2 ^ (w - 1) := by
    generalize a.toInt = x at *
    generalize b.toInt = y at *
    generalize (2 : Int) ^ (w - 1) = p at *
    have hx : x.natAbs ≤ p.toNat := by omega
    have hy : y.natAbs ≤ p.toNat := by omega
    have := Nat.mul_le_mul hx hy
    rw [← Int.natAbs_mul] at this
    have hpp : ((p.toNat * p.toNat : Nat) : Int) = p * p := by
      rw [Int.natCast_mul, Int.toNat_of_nonneg (by omega)]
    omega
  have hri : r.toInt = a.toInt * b.toInt := by
    rw [← hr, BitVec.toInt_mul, BitVec.toInt_signExtend_of_le (by omega), BitVec.toInt_signExtend_of_le (by omega)]
    have h2w : (0 : Nat) < 2 * w := by omega
    apply Int.bmod_eq_of_le
    · have hpos := Int.mul_pos h0 h0
      have : ((2 ^ (2 * w) : Nat) : Int) = 2 * 2 ^ (2 * w - 1) := by rw [← two_pow_pred h2w]; simp
      omega
    · have hpos := Int.mul_pos h0 h0
      have : ((2 ^ (2 * w) : Nat) : Int) = 2 * 2 ^ (2 * w - 1) := by rw [← two_pow_pred h2w]; simp
      omega
  have hmask : (BitVec.allOnes w).signExtend (2 * w) = BitVec.allOnes (2 * w) := by
    apply BitVec.eq_of_toInt_eq
    rw [BitVec.toInt_signExtend_of_le (by omega), BitVec.toInt_allOnes, BitVec.toInt_allOnes, if_pos hw, if_pos (by omega)]
  rw [hmask, BitVec.and_allOnes]
  have hlow : (((r.setWidth w).toNat : Nat) : Int) = r.toInt % 2 ^ w := by
    rw [BitVec.toNat_setWidth]
    have hN : ((2 ^ w : Nat) : Int) = (2 : Int) ^ w := by simp
    have hd : (2 : Int) ^ (2 * w) = 2 ^ w * 2 ^ w := by rw [← Int.pow_add]; congr 1; omega
    rw [Int.natCast_emod, hN, BitVec.toInt_eq_toNat_cond]
    split
    · rfl
    · have hN2 : ((2 ^ (2 * w) : Nat) : Int) = (2 : Int) ^ (2 * w) := by simp
      rw [hN2, hd, Int.sub_mul_emod_self_left]
  have hhigh : ((r.sshiftRight w).setWidth w).toInt = r.toInt / 2 ^ w := by
    have hcong : ∀ x : BitVec (2 * w), ((x.toNat : Int)).bmod (2 ^ w) = x.toInt.bmod (2 ^ w) := by
      intro x
      rw [BitVec.toInt_eq_toNat_cond]
      split
      · rfl
      · have hN2 : ((2 ^ (2 * w) : Nat) : Int) = ((2 ^ w : Nat) : Int) * (2 : Int) ^ w := by
          rw [show 2 * w = w + w by omega, Nat.pow_add]; simp
        rw [hN2, Int.sub_mul_bmod_self_left]
    rw [BitVec.toInt_setWidth, hcong, BitVec.toInt_sshiftRight, Int.shiftRight_eq_div_pow]
    have hN : ((2 ^ w : Nat) : Int) = (2 : Int) ^ w := by simp
    rw [hN]
    have hpos := Int.mul_pos h0 h0
    have hlo : -2 ^ (w - 1) ≤ r.toInt / 2 ^ w := by
      apply Int.le_ediv_of_mul_le (by omega)
      rw [hri, hp, Int.neg_mul, Int.mul_left_comm]
      omega
    have hhi : r.toInt / 2 ^ w < 2 ^ (w - 1) := by
      apply Int.ediv_lt_of_lt_mul (by omega)
      rw [hri, hp, Int.mul_left_comm]
      omega
    apply Int.bmod_eq_of_le
    · omega
    · omega
  rw [hlow, hhigh, hri, Int.mul_comm]
  exact Int.mul_ediv_add_emod _ _

theorem completeMultiply_unsigned {w : Nat} (a b : BitVec w) :
    (completeMultiply false a b).2.toNat * 2 ^ w + (completeMultiply false a b).1.toNat = a.toNat * b.toNat := by
  simp only [completeMultiply, Bool.false_eq_true, if_false]
  have ha := a.isLt
  have hb := b.isLt
  have hd : 2 ^ (2 * w) = 2 ^ w * 2 ^ w := by rw [← Nat.pow_add]; congr 1; omega
  have hlt : a.toNat * b.toNat < 2 ^ w * 2 ^ w := Nat.mul_lt_mul'' ha hb
  have hr : ((a.setWidth (2 * w) * b.setWidth (2 * w) : BitVec (2 * w))).toNat = a.toNat * b.toNat := by
    rw [BitVec.toNat_mul, BitVec.toNat_setWidth_of_le (by omega), BitVec.toNat_setWidth_of_le (by omega), hd,
      Nat.mod_eq_of_lt hlt]
  generalize a.setWidth (2 * w) * b.setWidth (2 * w) = r at *
  have hmask : ((BitVec.allOnes w).setWidth (2 * w)).toNat = 2 ^ w - 1 := by
    rw [BitVec.toNat_setWidth_of_le (by omega), BitVec.toNat_allOnes]
  rw [BitVec.toNat_setWidth, BitVec.toNat_setWidth, BitVec.toNat_and, hmask, Nat.and_two_pow_sub_one_eq_mod,
    Nat.mod_mod, BitVec.toNat_ushiftRight, Nat.shiftRight_eq_div_pow, hr,
    Nat.mod_eq_of_lt (Nat.div_lt_of_lt_mul hlt), Nat.mul_comm (_ / _)]
  exact Nat.div_add_mod _ _

/-- **C11 multiplication**, for every width and signedness. -/
theorem c11_multiplication (sg : Bool) {w : Nat} (hw : 0 < w) (a b : BitVec w) :
    Checked sg w (val sg a * val sg b) (multiplication sg a b) := by
  cases sg with
  | true =>
    have hm := completeMultiply_signed hw a b
    have hp := two_pow_pred hw
    have h0 := two_pow_pos (w - 1)
    simp only [Checked, multiplication, val, Ty.max, Ty.min, Ty.has, if_true]
    generalize completeMultiply true a b = r at *
    obtain ⟨lo, hi⟩ := r
    simp only at *
    rw [← hm]
    have e0 : hi = 0 ↔ hi.toInt = 0 := by
      constructor
      · rintro rfl; simp
      · intro h; apply BitVec.eq_of_toInt_eq; simpa using h
    have em : (allOnes w).toInt = -1 := by unfold allOnes; rw [BitVec.toInt_allOnes, if_pos hw]
    have e1 : hi = allOnes w ↔ hi.toInt = -1 := by
      constructor
      · rintro rfl; exact em
      · intro h; apply BitVec.eq_of_toInt_eq; rw [em]; exact h
    simp only [e0, e1, em]
    have hlo : lo.toInt = if 2 * lo.toNat < 2 ^ w then (lo.toNat : Int) else lo.toNat - 2 ^ w := by
      rw [BitVec.toInt_eq_toNat_cond]; simp
    have hl := lo.isLt
    have hN : ((2 ^ w : Nat) : Int) = (2 : Int) ^ w := by simp
    generalize hi.toInt = h at *
    generalize lo.toInt = s at *
    generalize lo.toNat = u at *
    have hm : h * 2 ^ w = if 0 < h then (h - 1) * 2 ^ w + 2 ^ w else if h = 0 then 0 else if h = -1 then -2 ^ w
        else (h + 2) * 2 ^ w - 2 * 2 ^ w := by
      split
      · rw [Int.sub_mul]; omega
      · split
        · subst h; simp
        · split
          · subst h; omega
          · rw [Int.add_mul]; omega
    have hpos : 0 < h → 0 ≤ (h - 1) * 2 ^ w := fun hh => Int.mul_nonneg (by omega) (by omega)
    have hneg : h < -1 → (h + 2) * 2 ^ w ≤ 0 := fun hh => Int.mul_nonpos_of_nonpos_of_nonneg (by omega) (by omega)
    rw [hm]
    generalize hq : (2 : Int) ^ (w - 1) = p at *
    generalize hW : (2 : Int) ^ w = q at *
    generalize (2 : Nat) ^ w = qn at *
    generalize (h - 1) * q = z1 at *
    generalize (h + 2) * q = z2 at *
    clear hm
    subst hp
    by_cases c1 : 0 < h
    · simp [c1]
      split at hlo <;> omega
    · by_cases c2 : h = 0
      · subst c2; simp; split at hlo <;> omega
      · by_cases c3 : h = -1
        · subst c3; simp; split at hlo <;> omega
        · simp [c1, c2, c3]; split at hlo <;> omega
  | false =>
    have hm := completeMultiply_unsigned a b
    simp only [Checked, multiplication, val, Ty.max, Ty.min, Ty.has, Bool.false_eq_true, if_false]
    generalize completeMultiply false a b = r at *
    obtain ⟨lo, hi⟩ := r
    simp only at *
    have hN : ((2 ^ w : Nat) : Int) = (2 : Int) ^ w := by simp
    have hmI : (a.toNat : Int) * b.toNat = ((hi.toNat * 2 ^ w + lo.toNat : Nat) : Int) := by rw [hm]; simp
    rw [hmI, ← hN]
    have e0 : hi = 0 ↔ hi.toNat = 0 := by
      constructor
      · rintro rfl; simp
      · intro h; apply BitVec.eq_of_toNat_eq; simpa using h
    have hl := lo.isLt
    by_cases c : hi.toNat = 0
    · simp only [ne_eq, e0, c]
      simp
      omega
    · have : 2 ^ w ≤ hi.toNat * 2 ^ w := Nat.le_mul_of_pos_left _ (by omega)
      generalize hi.toNat * 2 ^ w = z at *
      simp only [ne_eq, e0, c]
      simp
      omega

example : addition true (100 : BitVec 8) 28 = (-128, { overflow := true }) := by decide
example : multiplication true (-2 : BitVec 16) 3 = (-6, {}) := by decide

end Verif.SafeMath
