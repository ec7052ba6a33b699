import Verif.Model.Base64
import Verif.Spec.Base64

namespace Verif.Base64

theorem key_letter : ∀ i < 64, key (letter i) = i := by decide +kernel
theorem letter_ne_eq : ∀ i < 64, letter i ≠ eqChar := by decide +kernel
theorem letter_spec : ∀ i < 64, (letter i).toNat = (Spec.Base64.letterOf i).toNat := by decide +kernel

theorem and3 (w : Nat) : w &&& 0x3 = w % 4 := Nat.and_two_pow_sub_one_eq_mod w 2
theorem andF (w : Nat) : w &&& 0xF = w % 16 := Nat.and_two_pow_sub_one_eq_mod w 4
theorem and3F (w : Nat) : w &&& 0x3F = w % 64 := Nat.and_two_pow_sub_one_eq_mod w 6
theorem shr (w k : Nat) : w >>> k = w / 2 ^ k := Nat.shiftRight_eq_div_pow w k
theorem shl (w k : Nat) : w <<< k = w * 2 ^ k := Nat.shiftLeft_eq w k
theorem or8 (w b : Nat) (h : b < 256) : (w <<< 8) ||| b = w * 256 + b := by
  rw [← Nat.shiftLeft_add_eq_or_of_lt (i := 8) (by omega), Nat.shiftLeft_eq]
theorem or6 (w b : Nat) (h : b < 64) : (w <<< 6) ||| b = w * 64 + b := by
  rw [← Nat.shiftLeft_add_eq_or_of_lt (i := 6) (by omega), Nat.shiftLeft_eq]

theorem ofNat_eq {n : Nat} {b : UInt8} (h : n = b.toNat) : UInt8.ofNat n = b := by
  subst h; simp


theorem enc_one (a : UInt8) :
    encode [a] = [letter (a.toNat / 4), letter (a.toNat % 4 * 16), eqChar, eqChar] := by
  simp only [encode, and3, shr, shl]

theorem enc_two (a b : UInt8) :
    encode [a, b] = [letter (a.toNat / 4), letter (a.toNat % 4 * 16 + b.toNat / 16),
      letter (b.toNat % 16 * 4), eqChar] := by
  have hb := b.toNat_lt
  simp only [encode, and3, andF, or8 _ _ hb, shr]
  simp only [shl]
  have e1 : (a.toNat % 4 * 256 + b.toNat) / 2 ^ 4 = a.toNat % 4 * 16 + b.toNat / 16 := by omega
  have e2 : (a.toNat % 4 * 256 + b.toNat) % 16 = b.toNat % 16 := by omega
  rw [e1, e2]

set_option maxRecDepth 8000 in
theorem enc_three (a b c : UInt8) (rest : List UInt8) :
    encode (a :: b :: c :: rest) = [letter (a.toNat / 4), letter (a.toNat % 4 * 16 + b.toNat / 16),
      letter (b.toNat % 16 * 4 + c.toNat / 64), letter (c.toNat % 64)] ++ encode rest := by
  have hb := b.toNat_lt; have hc := c.toNat_lt
  simp only [encode, and3, andF, and3F, or8 _ _ hb, or8 _ _ hc, shr]
  have e1 : (a.toNat % 4 * 256 + b.toNat) / 2 ^ 4 = a.toNat % 4 * 16 + b.toNat / 16 := by omega
  have e2 : (a.toNat % 4 * 256 + b.toNat) % 16 = b.toNat % 16 := by omega
  rw [e1, e2]
  have e3 : (b.toNat % 16 * 256 + c.toNat) / 2 ^ 6 = b.toNat % 16 * 4 + c.toNat / 64 := by omega
  have e4 : (b.toNat % 16 * 256 + c.toNat) % 64 = c.toNat % 64 := by omega
  rw [e3, e4]

theorem bits8 (x : Nat) : Spec.Base64.bitsOf 8 x = [x.testBit 7, x.testBit 6, x.testBit 5,
    x.testBit 4, x.testBit 3, x.testBit 2, x.testBit 1, x.testBit 0] := rfl

theorem spec_encode_one (a : UInt8) : Spec.Base64.encode [a] =
    [Spec.Base64.letterOf (a.toNat / 4), Spec.Base64.letterOf (a.toNat % 4 * 16), '=', '='] := by
  have ha := a.toNat_lt
  simp only [Spec.Base64.encode, Spec.Base64.bits, List.flatMap_cons, List.flatMap_nil, bits8,
    List.append_nil, Spec.Base64.sextets, Spec.Base64.valueOf, List.foldl_cons, List.foldl_nil,
    Nat.toNat_testBit, List.cons_append, List.nil_append, List.length_cons, List.length_nil,
    List.replicate, Bool.toNat_false, List.map_cons, List.map_nil]
  congr 3
  · omega
  · omega

theorem spec_encode_two (a b : UInt8) : Spec.Base64.encode [a, b] =
    [Spec.Base64.letterOf (a.toNat / 4), Spec.Base64.letterOf (a.toNat % 4 * 16 + b.toNat / 16),
     Spec.Base64.letterOf (b.toNat % 16 * 4), '='] := by
  have ha := a.toNat_lt; have hb := b.toNat_lt
  simp only [Spec.Base64.encode, Spec.Base64.bits, List.flatMap_cons, List.flatMap_nil, bits8,
    List.append_nil, Spec.Base64.sextets, Spec.Base64.valueOf, List.foldl_cons, List.foldl_nil,
    Nat.toNat_testBit, List.cons_append, List.nil_append, List.length_cons, List.length_nil,
    List.replicate, Bool.toNat_false, List.map_cons, List.map_nil]
  refine List.cons_eq_cons.mpr ⟨congrArg _ ?_, List.cons_eq_cons.mpr ⟨congrArg _ ?_,
    List.cons_eq_cons.mpr ⟨congrArg _ ?_, rfl⟩⟩⟩ <;> omega

theorem spec_encode_three (a b c : UInt8) (rest : List UInt8) : Spec.Base64.encode (a :: b :: c :: rest) =
    [Spec.Base64.letterOf (a.toNat / 4), Spec.Base64.letterOf (a.toNat % 4 * 16 + b.toNat / 16),
     Spec.Base64.letterOf (b.toNat % 16 * 4 + c.toNat / 64), Spec.Base64.letterOf (c.toNat % 64)]
      ++ Spec.Base64.encode rest := by
  have ha := a.toNat_lt; have hb := b.toNat_lt; have hc := c.toNat_lt
  have hl : Spec.Base64.padCount (a :: b :: c :: rest).length = Spec.Base64.padCount rest.length := by
    simp only [Spec.Base64.padCount, List.length_cons]; omega
  simp only [Spec.Base64.encode, hl]
  simp only [Spec.Base64.bits, List.flatMap_cons, bits8,
    Spec.Base64.sextets, Spec.Base64.valueOf, List.foldl_cons, List.foldl_nil,
    Nat.toNat_testBit, List.cons_append, List.nil_append, List.map_cons]
  have e0 : 2 * (2 * (2 * (2 * (2 * (2 * 0 + a.toNat / 2 ^ 7 % 2) + a.toNat / 2 ^ 6 % 2) +
    a.toNat / 2 ^ 5 % 2) + a.toNat / 2 ^ 4 % 2) + a.toNat / 2 ^ 3 % 2) + a.toNat / 2 ^ 2 % 2
    = a.toNat / 4 := by omega
  have e1 : 2 * (2 * (2 * (2 * (2 * (2 * 0 + a.toNat / 2 ^ 1 % 2) + a.toNat / 2 ^ 0 % 2) +
    b.toNat / 2 ^ 7 % 2) + b.toNat / 2 ^ 6 % 2) + b.toNat / 2 ^ 5 % 2) + b.toNat / 2 ^ 4 % 2
    = a.toNat % 4 * 16 + b.toNat / 16 := by omega
  have e2 : 2 * (2 * (2 * (2 * (2 * (2 * 0 + b.toNat / 2 ^ 3 % 2) + b.toNat / 2 ^ 2 % 2) +
    b.toNat / 2 ^ 1 % 2) + b.toNat / 2 ^ 0 % 2) + c.toNat / 2 ^ 7 % 2) + c.toNat / 2 ^ 6 % 2
    = b.toNat % 16 * 4 + c.toNat / 64 := by omega
  have e3 : 2 * (2 * (2 * (2 * (2 * (2 * 0 + c.toNat / 2 ^ 5 % 2) + c.toNat / 2 ^ 4 % 2) +
    c.toNat / 2 ^ 3 % 2) + c.toNat / 2 ^ 2 % 2) + c.toNat / 2 ^ 1 % 2) + c.toNat / 2 ^ 0 % 2
    = c.toNat % 64 := by omega
  rw [e0, e1, e2, e3]

/-- A character other than `=` has a key different from 0xFF exactly when it is a letter. -/
theorem key_valid_nat : ∀ n < 256, n ≠ 61 →
    (key (UInt8.ofNat n) ≠ 0xFF ↔ ∃ v < 64, n = (Spec.Base64.letterOf v).toNat) := by
  decide +kernel

theorem key_valid (c : UInt8) (h : c ≠ eqChar) :
    key c ≠ 0xFF ↔ ∃ v < 64, c.toNat = (Spec.Base64.letterOf v).toNat := by
  have := key_valid_nat c.toNat c.toNat_lt (fun hc => h (by
    apply UInt8.toNat_inj.mp; rw [hc]; rfl))
  simpa using this

end Verif.Base64
