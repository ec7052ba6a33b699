import Verif.Model.BitRange
import Verif.Proof.IntType
import Verif.Props.SafeMath

namespace Verif.Spec.BitRange

/-- The range of an integer of `n` bits. -/
def lo (sg : Bool) (n : Nat) : Int := if sg then -2 ^ (n - 1) else 0
def hi (sg : Bool) (n : Nat) : Int := if sg then 2 ^ (n - 1) - 1 else 2 ^ n - 1

/-- The value of the range closest to `x`. -/
def clamp (sg : Bool) (n : Nat) (x : Int) : Int := if x < lo sg n then lo sg n else if x > hi sg n then hi sg n else x

end Verif.Spec.BitRange

namespace Verif.BitRange
open Verif.IntType Verif.Spec.BitRange

theorem cast_eq_of_bounds {t : Ty} (ht : 0 < t.bits) {x : Int} (h1 : t.min ≤ x) (h2 : x ≤ t.max) : t.cast x = x :=
  cast_of_has ht ⟨h1, h2⟩

theorem lo_le_hi (sg : Bool) {n : Nat} (hn : 0 < n) : lo sg n ≤ 0 ∧ 0 ≤ hi sg n := by
  unfold lo hi
  have h1 := two_pow_pos (n - 1)
  have h2 := two_pow_pos n
  cases sg <;> simp <;> omega

/-- **C10/C41 saturation.**  `SaturateInteger`, and with it `FractionalInteger`, yields the closest value of the field
for every pair of integer types, every field width and every input. -/
theorem c41_saturate (out inp : Ty) (n : Nat) (ho : 0 < out.bits) (hi' : 0 < inp.bits) (hn : 0 < n) (hn2 : n ≤ out.bits)
    (x : Int) (hx : inp.has x) :
    saturateInteger out inp n x = clamp out.signed n x := by
  have hmin : shr out.min (out.bits - n) = (if out.signed then lo true n else 0) := by
    unfold shr Ty.min lo
    cases out.signed with
    | false => simp
    | true =>
      simp only [if_true]
      rw [show (2 : Int) ^ (out.bits - 1) = 2 ^ (n - 1) * 2 ^ (out.bits - n) by
        rw [← Int.pow_add]; congr 1; omega, ← Int.neg_mul, Int.mul_ediv_cancel _ (Int.ne_of_gt (two_pow_pos _))]
  have hmax : shr out.max (out.bits - n) = hi out.signed n := by
    unfold shr Ty.max hi
    have h0 := two_pow_pos (out.bits - n)
    have key : ∀ a b : Int, 0 < b → (a * b - 1) / b = a - 1 := by
      intro a b hb
      rw [show a * b - 1 = (b - 1) + b * (a - 1) by rw [Int.mul_sub, Int.mul_comm]; omega,
        Int.add_mul_ediv_left _ _ (by omega), Int.ediv_eq_zero_of_lt (by omega) (by omega)]
      omega
    cases out.signed with
    | true =>
      simp only [if_true]
      rw [show (2 : Int) ^ (out.bits - 1) = 2 ^ (n - 1) * 2 ^ (out.bits - n) by
        rw [← Int.pow_add]; congr 1; omega]
      exact key _ _ h0
    | false =>
      simp only [Bool.false_eq_true, if_false]
      rw [show (2 : Int) ^ out.bits = 2 ^ n * 2 ^ (out.bits - n) by rw [← Int.pow_add]; congr 1; omega]
      exact key _ _ h0
  have hlo := lo_le_hi out.signed hn
  have homin : out.min ≤ lo out.signed n := by
    unfold Ty.min lo
    have := two_pow_mono (show n - 1 ≤ out.bits - 1 by omega)
    cases out.signed <;> simp <;> omega
  have homax : hi out.signed n ≤ out.max := by
    unfold Ty.max hi
    have := two_pow_mono (show n - 1 ≤ out.bits - 1 by omega)
    have := two_pow_mono hn2
    cases out.signed <;> simp <;> omega
  have c0 : inp.cast 0 = 0 := cast_of_has hi' (by
    unfold Ty.has Ty.min Ty.max
    have := two_pow_pos (inp.bits - 1)
    have := two_pow_pos inp.bits
    cases inp.signed <;> simp <;> omega)
  have c0' : out.cast 0 = 0 := cast_eq_of_bounds ho (by omega) (by omega)
  have cmax : out.cast (hi out.signed n) = hi out.signed n := cast_eq_of_bounds ho (by omega) homax
  have cmin : out.cast (lo out.signed n) = lo out.signed n := cast_eq_of_bounds ho homin (by omega)
  have hminc : (if out.signed then out.cast (shr out.min (out.bits - n)) else out.cast 0) = lo out.signed n := by
    rw [hmin]
    cases hs : out.signed with
    | true => simp only [if_true]; rw [hs] at cmin; exact cmin
    | false => simp only [Bool.false_eq_true, if_false]; rw [c0']; simp [lo]
  unfold saturateInteger
  simp only [hmax, cmax, c0, hminc]
  obtain ⟨hx1, hx2⟩ := hx
  by_cases hneg : x ≥ 0
  · rw [if_pos hneg]
    have hclamp : clamp out.signed n x = if x > hi out.signed n then hi out.signed n else x := by
      unfold clamp; rw [if_neg (by omega)]
    rw [hclamp]
    by_cases hu : inp.usable > out.usable
    · rw [if_pos hu]
      have hmaxle : out.max ≤ inp.max := by
        unfold Ty.usable at hu
        unfold Ty.max
        have m1 : ∀ a b : Nat, a ≤ b → (2 : Int) ^ a ≤ 2 ^ b := fun a b h => two_pow_mono h
        cases h1 : inp.signed <;> cases h2 : out.signed <;> simp only [h1, h2, Bool.false_eq_true, if_false, if_true] at hu ⊢
        · have := m1 out.bits inp.bits (by omega); omega
        · have := m1 (out.bits - 1) inp.bits (by omega); omega
        · have := m1 out.bits (inp.bits - 1) (by omega); omega
        · have := m1 (out.bits - 1) (inp.bits - 1) (by omega); omega
      have ci : inp.cast (hi out.signed n) = hi out.signed n := by
        apply cast_eq_of_bounds hi' _ (by omega)
        have : inp.min ≤ 0 := by
          unfold Ty.min; have := two_pow_pos (inp.bits - 1); cases inp.signed <;> simp <;> omega
        omega
      rw [ci]
      split
      · rfl
      · exact cast_eq_of_bounds ho (by omega) (by omega)
    · rw [if_neg hu]
      have hle : inp.max ≤ out.max := by
        unfold Ty.usable at hu
        unfold Ty.max
        have m1 : ∀ a b : Nat, a ≤ b → (2 : Int) ^ a ≤ 2 ^ b := fun a b h => two_pow_mono h
        cases h1 : inp.signed <;> cases h2 : out.signed <;> simp only [h1, h2, Bool.false_eq_true, if_false, if_true] at hu ⊢
        · have := m1 inp.bits out.bits (by omega); omega
        · have := m1 inp.bits (out.bits - 1) (by omega); omega
        · have := m1 (inp.bits - 1) out.bits (by omega); omega
        · have := m1 (inp.bits - 1) (out.bits - 1) (by omega); omega
      rw [cast_eq_of_bounds (t := out) (x := x) ho (by omega) (by omega)]
  · rw [if_neg hneg]
    have hin : inp.signed = true := by
      cases h : inp.signed with
      | true => rfl
      | false => unfold Ty.min at hx1; simp [h] at hx1; omega
    cases hs : out.signed with
    | false =>
      simp only [Bool.not_false, if_true]
      unfold clamp lo
      simp
      omega
    | true =>
      simp only [Bool.not_true, Bool.false_eq_true, if_false]
      rw [hs] at hlo homin homax cmin cmax
      have hclamp : clamp true n x = if x < lo true n then lo true n else x := by
        unfold clamp
        split
        · rfl
        · rw [if_neg (by omega)]
      rw [hclamp]
      by_cases hu : inp.usable > out.usable
      · rw [if_pos hu]
        have hmm : inp.min ≤ out.min ∧ out.max ≤ inp.max := by
          unfold Ty.usable at hu
          unfold Ty.min Ty.max
          simp only [hin, hs, if_true] at hu ⊢
          have := two_pow_mono (show out.bits - 1 ≤ inp.bits - 1 by omega)
          omega
        have ci : inp.cast (lo true n) = lo true n := cast_eq_of_bounds hi' (by omega) (by omega)
        rw [ci]
        split
        · rfl
        · exact cast_eq_of_bounds ho (by omega) (by omega)
      · rw [if_neg hu]
        have hmm : out.min ≤ inp.min := by
          unfold Ty.usable at hu
          unfold Ty.min
          simp only [hin, hs, if_true] at hu ⊢
          have := two_pow_mono (show inp.bits - 1 ≤ out.bits - 1 by omega)
          omega
        rw [cast_eq_of_bounds (t := out) (x := x) ho (by omega) (by omega)]

theorem max_cmp (inp out : Ty) :
    (inp.usable > out.usable → out.max ≤ inp.max) ∧ (¬ inp.usable > out.usable → inp.max ≤ out.max) := by
  have m1 : ∀ a b : Nat, a ≤ b → (2 : Int) ^ a ≤ 2 ^ b := fun a b h => two_pow_mono h
  unfold Ty.usable Ty.max
  constructor
  · intro hu
    cases h1 : inp.signed <;> cases h2 : out.signed <;> simp only [h1, h2, Bool.false_eq_true, if_false, if_true] at hu ⊢
    · have := m1 out.bits inp.bits (by omega); omega
    · have := m1 (out.bits - 1) inp.bits (by omega); omega
    · have := m1 out.bits (inp.bits - 1) (by omega); omega
    · have := m1 (out.bits - 1) (inp.bits - 1) (by omega); omega
  · intro hu
    cases h1 : inp.signed <;> cases h2 : out.signed <;> simp only [h1, h2, Bool.false_eq_true, if_false, if_true] at hu ⊢
    · have := m1 inp.bits out.bits (by omega); omega
    · have := m1 inp.bits (out.bits - 1) (by omega); omega
    · have := m1 (inp.bits - 1) out.bits (by omega); omega
    · have := m1 (inp.bits - 1) (out.bits - 1) (by omega); omega

theorem min_cmp (inp out : Ty) (hi : 1 < inp.bits) :
    (inp.usableNeg > out.usableNeg → inp.min ≤ out.min) ∧ (¬ inp.usableNeg > out.usableNeg → out.min ≤ inp.min) := by
  have m1 : ∀ a b : Nat, a ≤ b → (2 : Int) ^ a ≤ 2 ^ b := fun a b h => two_pow_mono h
  have p1 := two_pow_pos (inp.bits - 1)
  have p2 := two_pow_pos (out.bits - 1)
  unfold Ty.usableNeg Ty.min
  constructor
  · intro hu
    cases h1 : inp.signed <;> cases h2 : out.signed <;> simp only [h1, h2, Bool.false_eq_true, if_false, if_true] at hu ⊢
    · omega
    · omega
    · omega
    · have := m1 (out.bits - 1) (inp.bits - 1) (by omega); omega
  · intro hu
    cases h1 : inp.signed <;> cases h2 : out.signed <;> simp only [h1, h2, Bool.false_eq_true, if_false, if_true] at hu ⊢
    · omega
    · omega
    · omega
    · have := m1 (inp.bits - 1) (out.bits - 1) (by omega); omega

theorem min_max_zero (t : Ty) : t.min ≤ 0 ∧ 0 ≤ t.max := by
  unfold Ty.min Ty.max
  have := two_pow_pos (t.bits - 1)
  have := two_pow_pos t.bits
  cases t.signed <;> simp <;> omega

/-- **C41 saturating conversion.**  `SafeNumber2Number` between any two integer types stores the closest value of the
destination type and reports whether the value was kept. -/
theorem c41_safe_number (inp out : Ty) (ho : 0 < out.bits) (hi : 1 < inp.bits) (x : Int) (hx : inp.has x) :
    safeNumber2Number inp out x =
      (if x < out.min then out.min else if x > out.max then out.max else x, decide (out.has x)) := by
  obtain ⟨hx1, hx2⟩ := hx
  have hi0 := min_max_zero inp
  have ho0 := min_max_zero out
  obtain ⟨a1, a2⟩ := max_cmp inp out
  obtain ⟨b1, b2⟩ := min_cmp inp out hi
  have hmaxTest : (inp.usable > out.usable ∧ x > inp.cast out.max) ↔ x > out.max := by
    by_cases h : inp.usable > out.usable
    · rw [cast_eq_of_bounds (t := inp) (x := out.max) (by omega) (by omega) (a1 h)]
      exact ⟨fun h => h.2, fun h' => ⟨h, h'⟩⟩
    · have := a2 h
      exact ⟨fun h' => absurd h'.1 h, fun h' => by omega⟩
  have hminTest : (inp.usableNeg > out.usableNeg ∧ x < inp.cast out.min) ↔ x < out.min := by
    by_cases h : inp.usableNeg > out.usableNeg
    · rw [cast_eq_of_bounds (t := inp) (x := out.min) (by omega) (b1 h) (by omega)]
      exact ⟨fun h => h.2, fun h' => ⟨h, h'⟩⟩
    · have := b2 h
      exact ⟨fun h' => absurd h'.1 h, fun h' => by omega⟩
  unfold safeNumber2Number Ty.has
  simp only [hmaxTest, hminTest]
  by_cases c1 : x < out.min
  · have : ¬ out.min ≤ x := by omega
    have : ¬ x > out.max := by omega
    simp [*]
  · by_cases c2 : x > out.max
    · have : ¬ x ≤ out.max := by omega
      simp [*]
    · have h1 : out.min ≤ x := by omega
      have h2 : x ≤ out.max := by omega
      simp [c1, c2, h1, h2, cast_eq_of_bounds ho h1 h2]

/-! ## The bit field -/

/-- The mask of an unsigned field is the field; that of a signed field is everything from the field upwards. -/
theorem getLsbD_mask (sg : Bool) {w n off : Nat} (hw : w ≤ 64) (hn : 0 < n) (hno : off + n ≤ w) (i : Nat) :
    (mask sg w n off).getLsbD i = (decide (i < w) && decide (off ≤ i) && (sg || decide (i < off + n))) := by
  unfold mask
  simp only [BitVec.getLsbD_setWidth, BitVec.getLsbD_shiftLeft]
  by_cases h1 : i < w
  · by_cases h2 : off ≤ i
    · have h3 : i < 64 := by omega
      have h4 : ¬ i < off := by omega
      have h5 : i - off < 64 := by omega
      have h6 : i - off < w := by omega
      cases sg with
      | true =>
        simp only [if_true, BitVec.getLsbD_signExtend, BitVec.getLsbD_sshiftRight, BitVec.getLsbD_allOnes,
          BitVec.msb_allOnes (show 0 < w by omega)]
        simp [h1, h2, h3, h4, h5, h6]
      | false =>
        simp only [Bool.false_eq_true, if_false, BitVec.getLsbD_setWidth, BitVec.getLsbD_ushiftRight,
          BitVec.getLsbD_allOnes]
        simp [h1, h2, h3, h4, h5]
        omega
    · have h4 : i < off := by omega
      simp [h2, h4]
  · simp [h1]

/-- Bits of the storage after an assignment. -/
theorem getLsbD_assign (sg : Bool) {w n off : Nat} (hw : w ≤ 64) (hn : 0 < n) (hno : off + n ≤ w) (inp : Ty)
    (v : BitVec w) (x : Int) (i : Nat) :
    (assign sg n off inp v x).getLsbD i =
      if off ≤ i ∧ (sg = true ∨ i < off + n) then
        decide (i < w) && (BitVec.ofInt w (saturateInteger ⟨w, sg⟩ inp n x)).getLsbD (i - off)
      else v.getLsbD i := by
  unfold assign notMask
  simp only [BitVec.getLsbD_or, BitVec.getLsbD_and, BitVec.getLsbD_not, BitVec.getLsbD_shiftLeft,
    getLsbD_mask sg hw hn hno]
  by_cases h1 : i < w
  · by_cases h2 : off ≤ i
    · have h4 : ¬ i < off := by omega
      cases sg with
      | true => simp [h1, h2, h4]
      | false =>
        by_cases h5 : i < off + n
        · simp [h1, h2, h4, h5]
        · simp [h1, h2, h5]
    · have h4 : i < off := by omega
      simp [h1, h2]
  · rw [BitVec.getLsbD_of_ge v i (by omega)]
    simp [h1]

/-- Bits of a small integer above its field are copies of the sign. -/
theorem getLsbD_high (w : Nat) (k : Int) (m i : Nat) (hm : m < w) (h1 : -(2 : Int) ^ m ≤ k) (h2 : k < 2 ^ m) (hi : m ≤ i)
    (hiw : i < w) : (BitVec.ofInt w k).getLsbD i = decide (k < 0) := by
  have hw : 0 < w := by omega
  have hk : (BitVec.ofInt w k).toInt = k := by
    rw [BitVec.toInt_ofInt]
    have hp := two_pow_pred hw
    have := two_pow_mono (show m ≤ w - 1 by omega)
    have hN : ((2 ^ w : Nat) : Int) = (2 : Int) ^ w := by simp
    apply Int.bmod_eq_of_le <;> omega
  have hs := BitVec.getLsbD_sshiftRight (BitVec.ofInt w k) i 0
  have hsh : ((BitVec.ofInt w k).sshiftRight i).toInt = if k < 0 then -1 else 0 := by
    rw [BitVec.toInt_sshiftRight, hk, Int.shiftRight_eq_div_pow]
    have hN : ((2 ^ i : Nat) : Int) = (2 : Int) ^ i := by simp
    rw [hN]
    have := two_pow_mono hi
    split
    · have : k = (k + 2 ^ i) + 2 ^ i * (-1) := by omega
      rw [this, Int.add_mul_ediv_left _ _ (by omega), Int.ediv_eq_zero_of_lt (by omega) (by omega)]
      rfl
    · exact Int.ediv_eq_zero_of_lt (by omega) (by omega)
  simp only [Nat.add_zero, hiw, if_true] at hs
  rw [← (by simpa [Nat.pos_iff_ne_zero.mp hw] using hs :
    ((BitVec.ofInt w k).sshiftRight i).getLsbD 0 = (BitVec.ofInt w k).getLsbD i)]
  by_cases hneg : k < 0
  · rw [if_pos hneg] at hsh
    have : (BitVec.ofInt w k).sshiftRight i = BitVec.allOnes w := by
      apply BitVec.eq_of_toInt_eq; rw [hsh, BitVec.toInt_allOnes, if_pos hw]
    rw [this]; simp [hneg, hw]
  · rw [if_neg hneg] at hsh
    have : (BitVec.ofInt w k).sshiftRight i = 0 := by
      apply BitVec.eq_of_toInt_eq; rw [hsh]; simp
    rw [this]; simp [hneg]

theorem getLsbD_high_nat (w : Nat) (k : Int) (m i : Nat) (h1 : 0 ≤ k) (h2 : k < 2 ^ m) (hi : m ≤ i) :
    (BitVec.ofInt w k).getLsbD i = false := by
  obtain ⟨n, rfl⟩ := Int.eq_ofNat_of_zero_le h1
  rw [BitVec.ofInt_natCast, BitVec.getLsbD_ofNat]
  have : n < 2 ^ i := by
    have h3 : n < 2 ^ m := by
      have hN : ((2 ^ m : Nat) : Int) = (2 : Int) ^ m := by simp
      omega
    exact Nat.lt_of_lt_of_le h3 (Nat.pow_le_pow_right (by decide) hi)
  rw [Nat.testBit_lt_two_pow this]; simp

/-- Bits of the value read. -/
theorem getLsbD_read (sg : Bool) {w n off : Nat} (hw : w ≤ 64) (hn : 0 < n) (hno : off + n ≤ w) (v : BitVec w) (i : Nat)
    (hi : i < w) :
    (read sg n off v).getLsbD i = if i < n then v.getLsbD (off + i) else (sg && v.getLsbD (off + n - 1)) := by
  unfold read
  cases sg with
  | false =>
    simp only [Bool.false_eq_true, if_false, BitVec.getLsbD_ushiftRight, BitVec.getLsbD_shiftLeft, BitVec.getLsbD_and,
      getLsbD_mask false hw hn hno]
    by_cases h : i < n
    · have e : w - n + i - (w - off - n) = off + i := by omega
      have h1 : w - n + i < w := by omega
      have h2 : ¬ w - n + i < w - off - n := by omega
      have h3 : off + i < w := by omega
      simp [h, e, h1, h2, h3]
    · have h1 : ¬ w - n + i < w := by omega
      simp [h, h1]
  | true =>
    simp only [if_true, BitVec.getLsbD_sshiftRight, BitVec.msb_eq_getLsbD_last, BitVec.getLsbD_shiftLeft,
      BitVec.getLsbD_and, getLsbD_mask true hw hn hno]
    have hiw : ¬ w ≤ i := by omega
    by_cases h : i < n
    · have e : w - n + i - (w - off - n) = off + i := by omega
      have h1 : w - n + i < w := by omega
      have h2 : ¬ w - n + i < w - off - n := by omega
      have h3 : off + i < w := by omega
      simp [h, e, h1, h2, h3, hiw]
    · have h1 : ¬ w - n + i < w := by omega
      have e : w - 1 - (w - off - n) = off + n - 1 := by omega
      have h2 : ¬ w - 1 < w - off - n := by omega
      have h3 : off + n - 1 < w := by omega
      have h4 : w - 1 < w := by omega
      have h5 : off ≤ off + n - 1 := by omega
      simp [h, e, h1, h2, h3, h4, h5, hiw]

/-- **C10 read back.**  For every base type of at most 64 bits, every field inside it, every previous content of the
storage and every input of any integer type, reading the field after assigning to it gives the closest value of the
field. -/
theorem c10_read_back (sg : Bool) {w n off : Nat} (hw : w ≤ 64) (hn : 0 < n) (hno : off + n ≤ w) (inp : Ty)
    (hi : 0 < inp.bits) (v : BitVec w) (x : Int) (hx : inp.has x) :
    SafeMath.val sg (read sg n off (assign sg n off inp v x)) = clamp sg n x := by
  have hsat := c41_saturate ⟨w, sg⟩ inp n (show 0 < w by omega) hi hn (show n ≤ w by omega) x hx
  simp only at hsat
  have hlh := lo_le_hi sg hn
  have hc : lo sg n ≤ clamp sg n x ∧ clamp sg n x ≤ Verif.Spec.BitRange.hi sg n := by
    unfold clamp; split
    · omega
    · split <;> omega
  have heq : read sg n off (assign sg n off inp v x) = BitVec.ofInt w (clamp sg n x) := by
    apply BitVec.eq_of_getLsbD_eq
    intro i hiw
    rw [getLsbD_read sg hw hn hno _ i hiw]
    split
    · next h =>
      rw [getLsbD_assign sg hw hn hno, if_pos ⟨by omega, Or.inr (by omega)⟩, hsat]
      have h3 : off + i < w := by omega
      simp [h3]
    · next h =>
      cases sg with
      | false =>
        rw [Bool.false_and]
        symm
        apply getLsbD_high_nat w _ n i
        · unfold lo at hc; simp at hc; omega
        · unfold Verif.Spec.BitRange.hi at hc; simp at hc; omega
        · omega
      | true =>
        rw [Bool.true_and, getLsbD_assign true hw hn hno, if_pos ⟨by omega, Or.inl rfl⟩, hsat]
        have h3 : off + n - 1 < w := by omega
        have e : off + n - 1 - off = n - 1 := by omega
        have b1 : -(2 : Int) ^ (n - 1) ≤ clamp true n x := by unfold lo at hc; simpa using hc.1
        have b2 : clamp true n x < 2 ^ (n - 1) := by unfold Verif.Spec.BitRange.hi at hc; simp at hc; omega
        rw [e, getLsbD_high w _ (n - 1) (n - 1) (by omega) b1 b2 (Nat.le_refl _) (by omega),
          getLsbD_high w _ (n - 1) i (by omega) b1 b2 (by omega) hiw]
        simp [h3]
  rw [heq]
  have hp := two_pow_pred (show 0 < w by omega)
  have hN : ((2 ^ w : Nat) : Int) = (2 : Int) ^ w := by simp
  cases sg with
  | true =>
    simp only [SafeMath.val, if_true, BitVec.toInt_ofInt]
    have := two_pow_mono (show n - 1 ≤ w - 1 by omega)
    simp only [lo, Verif.Spec.BitRange.hi, if_true] at hc
    apply Int.bmod_eq_of_le <;> omega
  | false =>
    simp only [SafeMath.val, Bool.false_eq_true, if_false, BitVec.toNat_ofInt]
    have := two_pow_mono (show n ≤ w by omega)
    simp only [lo, Verif.Spec.BitRange.hi, Bool.false_eq_true, if_false] at hc
    rw [hN, Int.emod_eq_of_lt (by omega) (by omega), Int.toNat_of_nonneg (by omega)]

/-- **C10 rest of the word.**  Assigning to an unsigned field changes no bit outside of it. -/
theorem c10_outside_unsigned {w n off : Nat} (hw : w ≤ 64) (hn : 0 < n) (hno : off + n ≤ w) (inp : Ty) (v : BitVec w)
    (x : Int) (i : Nat) (hi : i < off ∨ off + n ≤ i) :
    (assign false n off inp v x).getLsbD i = v.getLsbD i := by
  rw [getLsbD_assign false hw hn hno, if_neg]
  rintro ⟨h1, h2 | h2⟩
  · cases h2
  · omega

/-- Bits below a signed field are not changed (partial: see `c10_signed_overwrites_above`). -/
theorem c10_outside_signed_partial {w n off : Nat} (hw : w ≤ 64) (hn : 0 < n) (hno : off + n ≤ w) (inp : Ty)
    (v : BitVec w) (x : Int) (i : Nat) (hi : i < off) :
    (assign true n off inp v x).getLsbD i = v.getLsbD i := by
  rw [getLsbD_assign true hw hn hno, if_neg]
  rintro ⟨h1, -⟩
  omega

/-- **C10 refuted for signed base types.**  Whatever was stored above a signed field is lost: every bit above the field
becomes the sign of the value assigned. -/
theorem c10_signed_overwrites_above {w n off : Nat} (hw : w ≤ 64) (hn : 0 < n) (hno : off + n ≤ w) (inp : Ty)
    (hib : 0 < inp.bits) (v : BitVec w) (x : Int) (hx : inp.has x) (i : Nat) (hi : off + n ≤ i) (hiw : i < w) :
    (assign true n off inp v x).getLsbD i = decide (clamp true n x < 0) := by
  have hsat := c41_saturate ⟨w, true⟩ inp n (show 0 < w by omega) hib hn (show n ≤ w by omega) x hx
  simp only at hsat
  rw [getLsbD_assign true hw hn hno, if_pos ⟨by omega, Or.inl rfl⟩, hsat]
  have hlh := lo_le_hi true hn
  have hc : lo true n ≤ clamp true n x ∧ clamp true n x ≤ Verif.Spec.BitRange.hi true n := by
    unfold clamp; split
    · omega
    · split <;> omega
  simp only [lo, Verif.Spec.BitRange.hi, if_true] at hc
  rw [getLsbD_high w _ (n - 1) (i - off) (by omega) (by omega) (by omega) (by omega) (by omega)]
  simp [hiw]

/-- Two signed fields of the same word: writing the lower one erases the upper one. -/
theorem c10_signed_neighbour_erased :
    let v := assign true 4 4 ⟨32, true⟩ (0 : BitVec 8) 5
    read true 4 4 v = 5 ∧ read true 4 4 (assign true 4 0 ⟨32, true⟩ v 1) = 0 := by decide

/-- **C10 flags.**  A `BitBoolean` reads back what was assigned and leaves the other bits alone. -/
theorem c10_flag {w off : Nat} (h : off < w) (v : BitVec w) (f : Bool) :
    getFlag off (setFlag off v f) = f ∧ ∀ i, i ≠ off → (setFlag off v f).getLsbD i = v.getLsbD i := by
  have hm : (1 : BitVec w) <<< off = BitVec.twoPow w off := by
    rw [BitVec.twoPow_eq]; rfl
  have hset : ∀ i, (setFlag off v f).getLsbD i = if i = off then f else v.getLsbD i := by
    intro i
    unfold setFlag
    cases f with
    | true =>
      simp only [if_true, hm, BitVec.getLsbD_or, BitVec.getLsbD_twoPow]
      by_cases e : i = off
      · subst e; simp [h]
      · have : ¬ off = i := fun h => e h.symm
        simp [e, this]
    | false =>
      simp only [Bool.false_eq_true, if_false, hm, BitVec.getLsbD_and, BitVec.getLsbD_not, BitVec.getLsbD_twoPow]
      by_cases e : i = off
      · subst e; simp [h]
      · have : ¬ off = i := fun h => e h.symm
        by_cases hiw : i < w
        · simp [e, this, hiw]
        · rw [BitVec.getLsbD_of_ge v i (by omega)]; simp [e]
  refine ⟨?_, fun i hi => by rw [hset, if_neg hi]⟩
  unfold getFlag
  rw [hm, BitVec.and_twoPow, hset, if_pos rfl]
  cases f with
  | false => simp
  | true =>
    simp only [if_true, bne_iff_ne, ne_eq]
    intro h0
    have := congrArg (fun x : BitVec w => x.getLsbD off) h0
    simp [BitVec.getLsbD_twoPow, h] at this

example : read false 4 3 (assign false 4 3 ⟨32, true⟩ (0xff : BitVec 8) (-7)) = 0 ∧
    assign false 4 3 ⟨32, true⟩ (0xff : BitVec 8) (-7) = 0x87 := by decide
example : Ty.has ⟨32, true⟩ (-7) := by decide

end Verif.BitRange
