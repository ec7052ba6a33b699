import Verif.Proof.IntText

namespace Verif.IntText
open Verif.Spec.IntText

theorem digitsValue_append (acc : Int) (a b : List UInt8) :
    digitsValue acc (a ++ b) = digitsValue (digitsValue acc a) b := by
  simp [digitsValue]

theorem digitsValue_acc (acc : Int) (a : List UInt8) :
    digitsValue acc a = acc * 10 ^ a.length + digitsValue 0 a := by
  induction a generalizing acc with
  | nil => simp [digitsValue]
  | cons c a ih =>
    have e : ∀ x : Int, digitsValue x (c :: a) = digitsValue (10 * x + ((c.toNat : Int) - 48)) a := fun _ => rfl
    rw [e, e, ih, ih (10 * 0 + _), List.length_cons, Int.pow_succ]
    generalize (10 : Int) ^ a.length = P
    grind

theorem digitChar (d : Nat) (h : d < 10) : (UInt8.ofNat (48 + d)).toNat = 48 + d := by
  rw [UInt8.toNat_ofNat']; omega

/-- The digit buffer: digits, value, size, no leading zero. -/
theorem digits16_spec (n : Nat) :
    (∀ c ∈ digits16 n, IsDigit c) ∧ digitsValue 0 (digits16 n) = n ∧
    (n < 10 ^ (digits16 n).length) ∧ (n = 0 → digits16 n = [48]) ∧
    (1 ≤ n → 10 ^ ((digits16 n).length - 1) ≤ n) ∧ 1 ≤ (digits16 n).length ∧
    (1 ≤ n → (digits16 n).head? ≠ some 48) := by
  induction n using Nat.strongRecOn with
  | _ n ih =>
    rw [digits16]
    by_cases h : n / 10 > 0
    · simp only [h, dite_true]
      obtain ⟨i1, i2, i3, i4, i5, i6, i7⟩ := ih (n / 10) (by omega)
      have hc := digitChar (n % 10) (by omega)
      refine ⟨?_, ?_, ?_, by omega, ?_, by simp, ?_⟩
      · intro c hc'
        rcases List.mem_append.mp hc' with h' | h'
        · exact i1 c h'
        · rw [List.mem_singleton] at h'; subst h'; unfold IsDigit; omega
      · rw [digitsValue_append, i2]
        show 10 * ((n / 10 : Nat) : Int) + (((UInt8.ofNat (48 + n % 10)).toNat : Int) - 48) = n
        rw [hc]; omega
      · rw [List.length_append, List.length_singleton, Nat.pow_succ]; omega
      · intro _
        rw [List.length_append, List.length_singleton, Nat.add_sub_cancel]
        have := i5 (by omega)
        rw [show (digits16 (n / 10)).length = (digits16 (n / 10)).length - 1 + 1 by omega, Nat.pow_succ]
        omega
      · intro _
        have := i7 (by omega)
        cases hd : digits16 (n / 10) with
        | nil => rw [hd] at i6; simp at i6
        | cons a l => rw [hd] at this; simpa using this
    · simp only [h, dite_false]
      have hc := digitChar (n % 10) (by omega)
      refine ⟨?_, ?_, by simp; omega, ?_, by simp, by simp, ?_⟩
      · intro c hc'; rw [List.mem_singleton] at hc'; subst hc'; unfold IsDigit; omega
      · show 10 * 0 + (((UInt8.ofNat (48 + n % 10)).toNat : Int) - 48) = n
        rw [hc]; omega
      · rintro rfl; rfl
      · intro h1 h2
        have h3 : UInt8.ofNat (48 + n % 10) = 48 := by
          rw [List.head?_cons] at h2; exact Option.some.inj h2
        have := congrArg UInt8.toNat h3
        rw [hc] at this
        have e : UInt8.toNat 48 = 48 := rfl
        omega

/-- `buffer[5]` (line 394) is large enough for every 16-bit value. -/
theorem digits16_length (n : Nat) (h : n < 65536) : (digits16 n).length ≤ 5 := by
  have := (digits16_spec n).2.2.2.2
  by_cases h0 : n = 0
  · rw [(digits16_spec n).2.2.2.1 h0]; decide
  · have h1 := this.1 (by omega)
    by_cases hl : (digits16 n).length ≤ 5
    · exact hl
    · exfalso
      have : 10 ^ 5 ≤ 10 ^ ((digits16 n).length - 1) := Nat.pow_le_pow_right (by omega) (by omega)
      omega

theorem print16_unpadded (n : Nat) (fill : Int) (h : fill ≤ 0) : print16 n fill = digits16 n := by
  unfold print16
  have : ¬ ((if fill < 0 then 0 else fill) > 0) := by split <;> omega
  simp [this]

theorem zeros_value (k : Nat) (acc : Int) : digitsValue acc (List.replicate k 48) = acc * 10 ^ k := by
  induction k generalizing acc with
  | zero => simp [digitsValue]
  | succ k ih =>
    rw [List.replicate_succ]
    have e : ∀ a : List UInt8, digitsValue acc (48 :: a) = digitsValue (10 * acc) a := by
      intro a; simp [digitsValue]
    rw [e, ih, Int.pow_succ]; grind

theorem print16_padded (n : Nat) (h : n < 10000) (acc : Int) :
    (∀ c ∈ print16 n 4, IsDigit c) ∧ (print16 n 4).length = 4 ∧
      digitsValue acc (print16 n 4) = acc * 10 ^ 4 + n := by
  obtain ⟨i1, i2, i3, i4, i5, i6, i7⟩ := digits16_spec n
  have hl : (digits16 n).length ≤ 4 := by
    by_cases h0 : n = 0
    · rw [i4 h0]; decide
    · have h1 := i5 (by omega)
      by_cases hl : (digits16 n).length ≤ 4
      · exact hl
      · exfalso
        have : 10 ^ 4 ≤ 10 ^ ((digits16 n).length - 1) := Nat.pow_le_pow_right (by omega) (by omega)
        omega
  have hz : (4 - ((digits16 n).length : Int) - (5 - 4) + 1).toNat = 4 - (digits16 n).length := by omega
  have e : print16 n 4 = List.replicate (4 - (digits16 n).length) 48 ++ digits16 n := by
    unfold print16; simp [hz]
  have hlen : (print16 n 4).length = 4 := by rw [e]; simp; omega
  refine ⟨?_, hlen, ?_⟩
  · rw [e]; intro c hc
    rcases List.mem_append.mp hc with h' | h'
    · have := (List.mem_replicate.mp h').2; subst this; unfold IsDigit; decide
    · exact i1 c h'
  · rw [digitsValue_acc, hlen, e, digitsValue_append, zeros_value]
    simp [i2]

/-- The divisor table with `k` groups of four digits. -/
def testsOf : Nat → List (Nat × Int)
  | 0 => []
  | k + 1 => (10 ^ (4 * (k + 1)), (4 * (k + 1) : Int)) :: testsOf k

theorem printGroups_padded (k n : Nat) (h : n < 10 ^ (4 * (k + 1))) (acc : Int) :
    (∀ c ∈ printGroups (testsOf k) n (4 * (k + 1)), IsDigit c) ∧
    (printGroups (testsOf k) n (4 * (k + 1))).length = 4 * (k + 1) ∧
    digitsValue acc (printGroups (testsOf k) n (4 * (k + 1))) = acc * 10 ^ (4 * (k + 1)) + n := by
  induction k generalizing n acc with
  | zero =>
    simp only [testsOf, printGroups]
    have h' : n < 10000 := by simpa using h
    rw [Nat.mod_eq_of_lt (by omega)]
    simpa using print16_padded n h' acc
  | succ k ih =>
    simp only [testsOf, printGroups]
    have hp : (0:Nat) < 10 ^ (4 * (k + 1)) := Nat.pow_pos (by omega)
    have hx : n / 10 ^ (4 * (k + 1)) < 10000 := by
      rw [Nat.div_lt_iff_lt_mul hp]
      have : 10 ^ (4 * (k + 1 + 1)) = 10000 * 10 ^ (4 * (k + 1)) := by
        rw [show 4 * (k + 1 + 1) = 4 + 4 * (k + 1) by omega, Nat.pow_add]
      omega
    have e4 : (4 * ((k + 1 : Nat) : Int) + 1 * 4) = 4 * ((k + 1 : Nat) + 1) := by omega
    rw [if_pos (Or.inr (by omega)), Nat.mod_eq_of_lt (by omega)]
    have ef : (4 * (((k + 1 : Nat) : Int) + 1) - 4 * ((k : Int) + 1)) = 4 := by omega
    rw [ef]
    obtain ⟨a1, a2, a3⟩ := print16_padded _ hx acc
    obtain ⟨b1, b2, b3⟩ := ih (n % 10 ^ (4 * (k + 1))) (Nat.mod_lt _ hp)
      (acc * 10 ^ 4 + (n / 10 ^ (4 * (k + 1)) : Nat))
    refine ⟨?_, ?_, ?_⟩
    · intro c hc
      rcases List.mem_append.mp hc with h' | h'
      · exact a1 c h'
      · exact b1 c h'
    · rw [List.length_append, a2, b2]; omega
    · rw [digitsValue_append, a3, b3]
      have hdm := Nat.div_add_mod n (10 ^ (4 * (k + 1)))
      have hcast : (n : Int) = (10 ^ (4 * (k + 1)) : Int) * ((n / 10 ^ (4 * (k + 1)) : Nat) : Int)
          + ((n % 10 ^ (4 * (k + 1)) : Nat) : Int) := by
        have := congrArg (Nat.cast (R := Int)) hdm
        rw [← this]; simp
      have hpow : (10 : Int) ^ (4 * (k + 1 + 1)) = 10 ^ 4 * 10 ^ (4 * (k + 1)) := by
        rw [show 4 * (k + 1 + 1) = 4 + 4 * (k + 1) by omega, Int.pow_add]
      rw [hpow, hcast]
      generalize ((n / 10 ^ (4 * (k + 1)) : Nat) : Int) = A
      generalize ((n % 10 ^ (4 * (k + 1)) : Nat) : Int) = B
      generalize (10 : Int) ^ (4 * (k + 1)) = P
      grind

/-- What a correct decimal text of a natural number is. -/
structure IsText (n : Nat) (l : List UInt8) : Prop where
  digits : ∀ c ∈ l, IsDigit c
  value : digitsValue 0 l = n
  nonempty : l ≠ []
  noLeadingZero : l.head? = some 48 → l = [48]

theorem isText_digits16 (n : Nat) : IsText n (digits16 n) := by
  obtain ⟨i1, i2, i3, i4, i5, i6, i7⟩ := digits16_spec n
  refine ⟨i1, i2, ?_, ?_⟩
  · intro h; rw [h] at i6; simp at i6
  · intro h
    by_cases h0 : n = 0
    · exact i4 h0
    · exact absurd h (i7 (by omega))

set_option maxRecDepth 8000 in
theorem printGroups_text (k n : Nat) (h : n < 10 ^ (4 * k) * 65536) :
    IsText n (printGroups (testsOf k) n 0) := by
  induction k with
  | zero =>
    simp only [testsOf, printGroups]
    rw [Nat.mod_eq_of_lt (by simpa using h), print16_unpadded _ _ (by omega)]
    exact isText_digits16 n
  | succ k ih =>
    have hp : (0:Nat) < 10 ^ (4 * (k + 1)) := Nat.pow_pos (by omega)
    simp only [testsOf, printGroups]
    by_cases hgt : n > 10 ^ (4 * (k + 1))
    · rw [if_pos (Or.inl hgt)]
      have hx : n / 10 ^ (4 * (k + 1)) < 65536 := by
        rw [Nat.div_lt_iff_lt_mul hp, Nat.mul_comm]; exact h
      have hx1 : 1 ≤ n / 10 ^ (4 * (k + 1)) := (Nat.le_div_iff_mul_le hp).mpr (by omega)
      rw [Nat.mod_eq_of_lt (by omega), print16_unpadded _ _ (by omega)]
      obtain ⟨i1, i2, i3, i4, i5, i6, i7⟩ := digits16_spec (n / 10 ^ (4 * (k + 1)))
      obtain ⟨b1, b2, b3⟩ := printGroups_padded k (n % 10 ^ (4 * (k + 1))) (Nat.mod_lt _ hp)
        ((n / 10 ^ (4 * (k + 1)) : Nat))
      have hne : digits16 (n / 10 ^ (4 * (k + 1))) ≠ [] := by intro h; rw [h] at i6; simp at i6
      refine ⟨?_, ?_, by simp [hne], ?_⟩
      · intro c hc
        rcases List.mem_append.mp hc with h' | h'
        · exact i1 c h'
        · exact b1 c h'
      · rw [digitsValue_append, i2, b3]
        have hdm := Nat.div_add_mod n (10 ^ (4 * (k + 1)))
        have := congrArg (Nat.cast (R := Int)) hdm
        rw [← this]; simp; rw [Int.mul_comm]
      · intro hh
        exfalso; apply i7 hx1
        cases hd : digits16 (n / 10 ^ (4 * (k + 1))) with
        | nil => exact absurd hd hne
        | cons a l => rw [hd] at hh; simpa using hh
    · rw [if_neg (by omega)]
      apply ih
      have e : 10 ^ (4 * (k + 1)) = 10 ^ (4 * k) * 10000 := by
        rw [show 4 * (k + 1) = 4 * k + 4 by omega, Nat.pow_add]
      have hp' : (0:Nat) < 10 ^ (4 * k) := Nat.pow_pos (by omega)
      refine Nat.lt_of_le_of_lt (Nat.le_of_not_gt hgt) ?_
      rw [e]; exact (Nat.mul_lt_mul_left hp').mpr (by omega)

theorem printPositive_text (t : IType) (h : IsCxxType t) (n : Nat) (hn : (n : Int) ≤ 2 ^ t.w - 1) :
    IsText n (printPositive t.w n) := by
  unfold printPositive
  rcases h with h | h | h | h <;> rw [h] at hn ⊢
  · simp only [show ¬ (8 = 64) by decide, show ¬ (8 = 32) by decide, if_false]
    rw [print16_unpadded _ _ (by omega)]; exact isText_digits16 n
  · simp only [show ¬ (16 = 64) by decide, show ¬ (16 = 32) by decide, if_false]
    rw [print16_unpadded _ _ (by omega)]; exact isText_digits16 n
  · simp only [show ¬ (32 = 64) by decide, if_false, if_true]
    exact printGroups_text 2 n (by omega)
  · simp only [if_true]
    exact printGroups_text 4 n (by omega)

/-- One stage of `GetOrderOfMagnitude`: `r` more digits than `k` are possible before, `max k r` after. -/
theorem magStep_spec (t : IType) (n f ten : Int) (k r m d : Nat) (hf : f = 10 ^ k) (hten : ten = 10 ^ d) (hk : k ≤ m) (hr : r ≤ m)
    (hle : d = 0 ∨ (10 : Int) ^ d ≤ n) (hlt : n < 10 ^ (d + k + r))
    (hc : t.cast ((10 : Int) ^ d * 10 ^ k) = 10 ^ (d + k)) :
    ∃ d', magStep t n f k (ten, d) = (10 ^ d', d') ∧ (d' = 0 ∨ (10 : Int) ^ d' ≤ n) ∧
      n < 10 ^ (d' + m) ∧ (d' = d ∨ d' = d + k) := by
  have mono : ∀ a b : Nat, a ≤ b → (10 : Int) ^ a ≤ 10 ^ b := fun a b h => by
    have := Nat.pow_le_pow_right (n := 10) (by omega) h
    exact_mod_cast this
  unfold magStep
  subst hf hten
  simp only [hc]
  split
  · rename_i h
    refine ⟨d + k, rfl, .inr h, ?_, .inr rfl⟩
    have := mono (d + k + r) (d + k + m) (by omega)
    omega
  · rename_i h
    refine ⟨d, rfl, hle, ?_, .inl rfl⟩
    have := mono (d + k) (d + m) (by omega)
    omega

theorem magFinal (t : IType) (n : Int) (d : Nat) (hle : d = 0 ∨ (10 : Int) ^ d ≤ n) (h0 : 0 ≤ n)
    (hlt : n < 10 ^ (d + 2))
    (hc : t.cast ((10 : Int) ^ d * 10) = 10 ^ (d + 1) ∨
      (t.cast ((10 : Int) ^ d * 10) ≤ 10 ^ d ∧ n < 10 ^ (d + 1))) :
    let f := if t.cast ((10 : Int) ^ d * 10) > 10 ^ d then
      (if n ≥ t.cast ((10 : Int) ^ d * 10) then d + 1 else d) else d
    (n < 10 ^ (f + 1)) ∧ (1 ≤ n → (10 : Int) ^ f ≤ n) ∧ (n = 0 → f = 0) := by
  have hpos : (0 : Int) < 10 ^ d := Int.pow_pos (by decide)
  have hp1 : (10 : Int) ^ (d + 1) = 10 ^ d * 10 := Int.pow_succ ..
  have hd : 1 ≤ n → (10 : Int) ^ d ≤ n := by
    intro h; rcases hle with rfl | h'
    · simpa using h
    · exact h'
  have hz : n = 0 → d = 0 := by
    intro h; rcases hle with h' | h'
    · exact h'
    · omega
  rcases hc with hc | ⟨hc, hn⟩
  · simp only [hc]
    rw [if_pos (by omega)]
    split
    · rename_i h; exact ⟨hlt, fun _ => h, fun h' => by omega⟩
    · rename_i h; exact ⟨by omega, hd, hz⟩
  · simp only
    rw [if_neg (by omega)]
    exact ⟨hn, hd, hz⟩

/-- `GetOrderOfMagnitude` is one less than the number of decimal digits. -/
theorem orderOfMagnitude_spec (t : IType) (h : IsCxxType t) (n : Int) (h0 : 0 ≤ n) (h1 : n ≤ maxVal t) :
    (n < 10 ^ (orderOfMagnitude t n + 1)) ∧ (1 ≤ n → (10 : Int) ^ orderOfMagnitude t n ≤ n) ∧
    (n = 0 → orderOfMagnitude t n = 0) := by
  obtain ⟨w, s⟩ := t
  unfold orderOfMagnitude
  rcases h with h | h | h | h <;> simp only at h <;> subst h
  · have hb : n < 10 ^ (0 + 1 + 2) := by cases s <;> simp [maxVal] at h1 <;> omega
    simp only [ge_iff_le, Nat.reduceLeDiff, if_false]
    obtain ⟨d, e, a, b, c⟩ := magStep_spec ⟨8, s⟩ n 10 1 1 2 2 0 rfl rfl (by decide) (by decide) (.inl rfl) hb
      (by cases s <;> decide)
    rw [e]
    exact magFinal ⟨8, s⟩ n d a h0 b (.inl (by rcases c with rfl | rfl <;> cases s <;> decide))
  · have hb : n < 10 ^ (0 + 2 + 3) := by cases s <;> simp [maxVal] at h1 <;> omega
    simp only [ge_iff_le, Nat.reduceLeDiff, if_false, if_true]
    obtain ⟨d, e, a, b, c⟩ := magStep_spec ⟨16, s⟩ n 100 1 2 3 3 0 rfl rfl (by decide) (by decide) (.inl rfl) hb
      (by cases s <;> decide)
    rw [e]
    obtain ⟨d1, e, a, b, c1⟩ := magStep_spec ⟨16, s⟩ n 10 _ 1 2 2 d rfl rfl (by decide) (by decide) a b
      (by rcases c with rfl | rfl <;> cases s <;> decide)
    rw [e]
    exact magFinal ⟨16, s⟩ n d1 a h0 b
      (.inl (by rcases c with rfl | rfl <;> rcases c1 with rfl | rfl <;> cases s <;> decide))
  · have hb : n < 10 ^ (0 + 5 + 5) := by cases s <;> simp [maxVal] at h1 <;> omega
    simp only [ge_iff_le, Nat.reduceLeDiff, if_false, if_true]
    obtain ⟨d, e, a, b, c⟩ := magStep_spec ⟨32, s⟩ n 100000 1 5 5 5 0 rfl rfl (by decide) (by decide) (.inl rfl) hb
      (by cases s <;> decide)
    rw [e]
    obtain ⟨d1, e, a, b, c1⟩ := magStep_spec ⟨32, s⟩ n 100 _ 2 3 3 d rfl rfl (by decide) (by decide) a b
      (by rcases c with rfl | rfl <;> cases s <;> decide)
    rw [e]
    obtain ⟨d2, e, a, b, c2⟩ := magStep_spec ⟨32, s⟩ n 10 _ 1 2 2 d1 rfl rfl (by decide) (by decide) a b
      (by rcases c with rfl | rfl <;> rcases c1 with rfl | rfl <;> cases s <;> decide)
    rw [e]
    exact magFinal ⟨32, s⟩ n d2 a h0 b (.inl (by
      rcases c with rfl | rfl <;> rcases c1 with rfl | rfl <;> rcases c2 with rfl | rfl <;> cases s <;> decide))
  · have hb : n < 10 ^ (0 + 10 + 10) := by cases s <;> simp [maxVal] at h1 <;> omega
    simp only [ge_iff_le, Nat.reduceLeDiff, if_true]
    obtain ⟨d, e, a, b, c⟩ := magStep_spec ⟨64, s⟩ n 10000000000 1 10 10 10 0 rfl rfl (by decide) (by decide)
      (.inl rfl) hb (by cases s <;> decide)
    rw [e]
    obtain ⟨d1, e, a, b, c1⟩ := magStep_spec ⟨64, s⟩ n 100000 _ 5 5 5 d rfl rfl (by decide) (by decide) a b
      (by rcases c with rfl | rfl <;> cases s <;> decide)
    rw [e]
    obtain ⟨d2, e, a, b, c2⟩ := magStep_spec ⟨64, s⟩ n 100 _ 2 3 3 d1 rfl rfl (by decide) (by decide) a b
      (by rcases c with rfl | rfl <;> rcases c1 with rfl | rfl <;> cases s <;> decide)
    rw [e]
    obtain ⟨d3, e, a, b, c3⟩ := magStep_spec ⟨64, s⟩ n 10 _ 1 2 2 d2 rfl rfl (by decide) (by decide) a b
      (by rcases c with rfl | rfl <;> rcases c1 with rfl | rfl <;> rcases c2 with rfl | rfl <;> cases s <;> decide)
    rw [e]
    refine magFinal ⟨64, s⟩ n d3 a h0 b ?_
    by_cases h18 : d3 = 18 ∧ s = true
    · obtain ⟨rfl, rfl⟩ := h18
      right; simp [maxVal] at h1; exact ⟨by decide, by omega⟩
    · left
      clear e a b hb h0 h1
      rcases c with rfl | rfl <;> rcases c1 with rfl | rfl <;> rcases c2 with rfl | rfl <;>
        rcases c3 with rfl | rfl <;> cases s <;> first | decide | (exact absurd ⟨rfl, rfl⟩ h18)

end Verif.IntText
