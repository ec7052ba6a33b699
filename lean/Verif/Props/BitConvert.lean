import Verif.Proof.BitConvert3
/-!
# C65: integer conversion between fields of bits

`value`, `bit`, `least`, `greatest` and `clamp` are in `Verif.Spec.BitConvert`: the number in a field of bits of a
memory, and the number nearest to another one that fits a field.  The bit of a field in the memory is
`8 * pointer + shift`.
-/
namespace Verif.BitConvert
open Verif.Spec.BitConvert

/-- **C65, conversion.**  For every memory, every pair of fields of 1 to 128 bits of any signedness at any address
(inside `granularity` elements of 1, 2, 4, 8 or 16 bytes such that each field ends within 128 bits of its element):
the conversion succeeds; the destination has the value nearest to the one of the source; both pairs of pointer and
shift stand at the bit after their field. -/
theorem c65_convert (g : Nat) (hg : g = 1 ∨ g = 2 ∨ g = 4 ∨ g = 8 ∨ g = 16) (mem : Mem) (d s : Field)
    (hd0 : 0 < d.bits) (hs0 : 0 < s.bits)
    (hd : d.shift % (8 * g) + d.bits ≤ 128) (hs : s.shift % (8 * g) + s.bits ≤ 128)
    (hdm : 8 * d.pointer + d.shift + d.bits ≤ 8 * mem.length)
    (hsm : 8 * s.pointer + s.shift + s.bits ≤ 8 * mem.length) :
    ∃ mem' dp dsh sp ssh, bitSetToBitSet g mem d s = some (true, mem', (dp, dsh), (sp, ssh)) ∧
      mem'.length = mem.length ∧
      value mem' (8 * d.pointer + d.shift) d.bits d.signed
        = clamp d.bits d.signed (value mem (8 * s.pointer + s.shift) s.bits s.signed) ∧
      8 * dp + dsh = 8 * d.pointer + d.shift + d.bits ∧ 8 * sp + ssh = 8 * s.pointer + s.shift + s.bits := by
  obtain ⟨mem', dp, dsh, sp, ssh, h1, h2, h3, h4⟩ := bitSetToBitSet_written g hg mem d s hd0 hs0 hd hs hdm hsm
  exact ⟨mem', dp, dsh, sp, ssh, h1, h4.1, written_value _ _ _ _ _ _ _ _ hd0 hs0 h4, h2, h3⟩

/-- **C65, the other bits, partial.**  A conversion changes no bit outside the destination when the destination ends at
the end of a byte, and also when it does not except for a negative number that fits a narrower signed field.
The full statement is without the hypothesis `hq` and is false: see `c65_neighbours_fails`. -/
theorem c65_others_partial (g : Nat) (hg : g = 1 ∨ g = 2 ∨ g = 4 ∨ g = 8 ∨ g = 16) (mem : Mem) (d s : Field)
    (hd0 : 0 < d.bits) (hs0 : 0 < s.bits)
    (hd : d.shift % (8 * g) + d.bits ≤ 128) (hs : s.shift % (8 * g) + s.bits ≤ 128)
    (hdm : 8 * d.pointer + d.shift + d.bits ≤ 8 * mem.length)
    (hsm : 8 * s.pointer + s.shift + s.bits ≤ 8 * mem.length)
    (hq : (d.shift + d.bits) % 8 = 0 ∨ ¬ (d.signed = true ∧ d.bits < s.bits ∧
      value mem (8 * s.pointer + s.shift) s.bits s.signed < 0 ∧
      least d.bits d.signed ≤ value mem (8 * s.pointer + s.shift) s.bits s.signed))
    (ret : Bool) (mem' : Mem) (p q : Nat × Nat) (h : bitSetToBitSet g mem d s = some (ret, mem', p, q))
    (i : Nat) (hi : i < 8 * d.pointer + d.shift ∨ 8 * d.pointer + d.shift + d.bits ≤ i) : bit mem' i = bit mem i := by
  obtain ⟨mem'', dp, dsh, sp, ssh, h1, h2, h3, h4⟩ := bitSetToBitSet_written g hg mem d s hd0 hs0 hd hs hdm hsm
  rw [h1] at h
  obtain ⟨rfl, rfl, -, -⟩ : true = ret ∧ mem'' = mem' ∧ (dp, dsh) = p ∧ (sp, ssh) = q := by simpa using h
  refine written_others _ _ _ _ _ _ _ _ hd0 hs0 h4 ?_ i hi
  rcases hq with hq | hq
  · left; omega
  · right
    rintro ⟨-, h1, h2, h3, h4⟩
    exact hq ⟨h1, h2, h3, h4⟩

/-- **C65, refusal.**  A field that ends after 128 bits of its element is refused and nothing is written. -/
theorem c65_refused (g : Nat) (hg : g = 1 ∨ g = 2 ∨ g = 4 ∨ g = 8 ∨ g = 16) (mem : Mem) (d s : Field)
    (hd : d.shift % (8 * g) + d.bits < 256) (hs : s.shift % (8 * g) + s.bits < 256)
    (h : 128 < d.shift % (8 * g) + d.bits ∨ 128 < s.shift % (8 * g) + s.bits) :
    ∃ p q, bitSetToBitSet g mem d s = some (false, mem, p, q) :=
  bitSetToBitSet_refused g hg mem d s hd hs h

/-- **C65, the neighbours fail.**  A negative number that fits a narrower signed field sets to one the bits that
follow the field in its last byte (as many as the source has more), whatever they were. -/
theorem c65_neighbours_fails (g : Nat) (hg : g = 1 ∨ g = 2 ∨ g = 4 ∨ g = 8 ∨ g = 16) (mem : Mem) (d s : Field)
    (hd0 : 0 < d.bits) (hsd : d.bits < s.bits)
    (hd : d.shift % (8 * g) + d.bits ≤ 128) (hs : s.shift % (8 * g) + s.bits ≤ 128)
    (hdm : 8 * d.pointer + d.shift + d.bits ≤ 8 * mem.length)
    (hsm : 8 * s.pointer + s.shift + s.bits ≤ 8 * mem.length)
    (h1 : s.signed = true) (h2 : d.signed = true)
    (h3 : value mem (8 * s.pointer + s.shift) s.bits true < 0)
    (h4 : least d.bits true ≤ value mem (8 * s.pointer + s.shift) s.bits true)
    (ret : Bool) (mem' : Mem) (p q : Nat × Nat) (h : bitSetToBitSet g mem d s = some (ret, mem', p, q))
    (i : Nat) (hi : 8 * d.pointer + d.shift + d.bits ≤ i)
    (hi8 : i < (8 * d.pointer + d.shift + d.bits + 7) / 8 * 8) (his : i < 8 * d.pointer + d.shift + s.bits) :
    bit mem' i = true := by
  obtain ⟨mem'', dp, dsh, sp, ssh, e1, -, -, e4⟩ := bitSetToBitSet_written g hg mem d s hd0 (by omega) hd hs hdm hsm
  rw [e1] at h
  obtain ⟨rfl, rfl, -, -⟩ : true = ret ∧ mem'' = mem' ∧ (dp, dsh) = p ∧ (sp, ssh) = q := by simpa using h
  rw [h1, h2] at e4
  exact written_ones _ _ _ _ _ _ hd0 hsd e4 h3 h4 i hi hi8 his

/-- **C65, the neighbours fail: a case.**  `-1` of eight bits to a signed field of three bits at the bit 0 of a byte
that is 0: the byte becomes `0xff` instead of `0x07`. -/
theorem c65_neighbours_case_fails :
    bitSetToBitSet 1 [0xff, 0x00] ⟨1, 0, 3, true⟩ ⟨0, 0, 8, true⟩ = some (true, [0xff, 0xff], (1, 3), (0, 8)) := by
  decide +kernel

/-- **C65, conversion of types of integers.**  `TypeConvert` between integers whose descriptors differ. -/
theorem c65_type_convert (mem : Mem) (d s : Field) (hne : ¬ (d.bits = s.bits ∧ d.signed = s.signed))
    (hd0 : 0 < d.bits) (hs0 : 0 < s.bits)
    (hd : d.shift % 8 + d.bits ≤ 128) (hs : s.shift % 8 + s.bits ≤ 128)
    (hdm : 8 * d.pointer + d.shift + d.bits ≤ 8 * mem.length)
    (hsm : 8 * s.pointer + s.shift + s.bits ≤ 8 * mem.length) :
    ∃ mem', convertInteger mem d s = some (true, mem') ∧ mem'.length = mem.length ∧
      value mem' (8 * d.pointer + d.shift) d.bits d.signed
        = clamp d.bits d.signed (value mem (8 * s.pointer + s.shift) s.bits s.signed) ∧
      ((d.shift + d.bits) % 8 = 0 → ∀ i, i < 8 * d.pointer + d.shift ∨ 8 * d.pointer + d.shift + d.bits ≤ i →
        bit mem' i = bit mem i) := by
  have e1 : u8 d.bits = d.bits := by unfold u8; omega
  have e2 : u8 s.bits = s.bits := by unfold u8; omega
  obtain ⟨mem', dp, dsh, sp, ssh, h1, h2, h3, -, -⟩ := c65_convert 1 (by omega) mem d s hd0 hs0 hd hs hdm hsm
  refine ⟨mem', ?_, h2, h3, ?_⟩
  · unfold convertInteger
    rw [if_neg hne, e1, e2]
    show ((bitSetToBitSet 1 mem d s).bind fun x => some (x.1, x.2.1)) = _
    rw [h1]
    rfl
  · intro h8 i hi
    exact c65_others_partial 1 (by omega) mem d s hd0 hs0 hd hs hdm hsm (Or.inl h8) true mem' _ _ h1 i hi

/-- **C65, equal types, partial.**  `TypeConvert` between integers of the same descriptor that fill whole bytes.
The full statement is for any bit address and any number of bits and is false: see `c65_same_type_fails`. -/
theorem c65_same_type_partial (mem : Mem) (d s : Field) (hb : d.bits = s.bits) (hsg : d.signed = s.signed)
    (h0 : 0 < s.bits) (h8 : s.bits % 8 = 0) (hds : d.shift = 0) (hss : s.shift = 0)
    (hdm : 8 * d.pointer + d.bits ≤ 8 * mem.length) (hsm : 8 * s.pointer + s.bits ≤ 8 * mem.length) :
    ∃ mem', convertInteger mem d s = some (true, mem') ∧ mem'.length = mem.length ∧
      value mem' (8 * d.pointer) d.bits d.signed = value mem (8 * s.pointer) s.bits s.signed ∧
      ∀ i, i < 8 * d.pointer ∨ 8 * d.pointer + d.bits ≤ i → bit mem' i = bit mem i := by
  have hbs : byteSize s = s.bits / 8 := by unfold byteSize; omega
  have hlen : ((mem.drop s.pointer).take (byteSize s)).length = byteSize s := by
    rw [List.length_take, List.length_drop]; omega
  have hw := fun i => bit_write mem ((mem.drop s.pointer).take (byteSize s)) d.pointer i (by rw [hlen]; omega)
  rw [hlen] at hw
  have hsl := fun i => bit_slice mem s.pointer (byteSize s) i (by omega)
  refine ⟨mem.take d.pointer ++ (mem.drop s.pointer).take (byteSize s) ++ mem.drop (d.pointer + byteSize s), ?_, ?_, ?_, ?_⟩
  · unfold convertInteger readBytes writeBytes
    rw [if_pos ⟨hb, hsg⟩, if_pos ⟨by omega, Nat.le_refl _⟩]
    show (if d.pointer + ((mem.drop s.pointer).take (byteSize s)).length ≤ mem.length then _ else _ : Option Mem).bind _ = _
    rw [hlen, if_pos (by omega)]
    rfl
  · simp only [List.length_append, List.length_take, List.length_drop]; omega
  · have key : bits (mem.take d.pointer ++ (mem.drop s.pointer).take (byteSize s) ++ mem.drop (d.pointer + byteSize s))
        (8 * d.pointer) d.bits = bits mem (8 * s.pointer) s.bits := by
      apply Nat.eq_of_testBit_eq
      intro i
      rw [bits_testBit, bits_testBit, hb]
      by_cases hi : i < s.bits
      · rw [hw, if_pos (by omega), show 8 * d.pointer + i - 8 * d.pointer = i by omega, hsl]
        simp [show i < 8 * byteSize s by omega]
      · simp [hi]
    rw [value_decode _ _ _ (by omega), value_decode _ _ _ h0, key, hb, hsg]
  · intro i hi
    rw [hw, if_neg (by omega)]

/-- **C65, equal types at equal bit addresses.**  The destination gets the value of the source for any number of bits
(the other bits of its bytes are overwritten, see `c65_same_type_fails`); the other bytes are kept. -/
theorem c65_same_address (mem : Mem) (d s : Field) (hb : d.bits = s.bits) (hsg : d.signed = s.signed)
    (h0 : 0 < s.bits) (hsh : d.shift = s.shift)
    (hdm : 8 * d.pointer + d.shift + d.bits ≤ 8 * mem.length) (hsm : 8 * s.pointer + s.shift + s.bits ≤ 8 * mem.length) :
    ∃ mem', convertInteger mem d s = some (true, mem') ∧ mem'.length = mem.length ∧
      value mem' (8 * d.pointer + d.shift) d.bits d.signed = value mem (8 * s.pointer + s.shift) s.bits s.signed ∧
      ∀ i, i < 8 * d.pointer ∨ (8 * d.pointer + d.shift + d.bits + 7) / 8 * 8 ≤ i → bit mem' i = bit mem i := by
  have hbs : byteSize s = (s.bits + s.shift + 7) / 8 := rfl
  have hlen : ((mem.drop s.pointer).take (byteSize s)).length = byteSize s := by
    rw [List.length_take, List.length_drop]; omega
  have hw := fun i => bit_write mem ((mem.drop s.pointer).take (byteSize s)) d.pointer i (by rw [hlen]; omega)
  rw [hlen] at hw
  have hsl := fun i => bit_slice mem s.pointer (byteSize s) i (by omega)
  refine ⟨mem.take d.pointer ++ (mem.drop s.pointer).take (byteSize s) ++ mem.drop (d.pointer + byteSize s), ?_, ?_, ?_, ?_⟩
  · unfold convertInteger readBytes writeBytes
    rw [if_pos ⟨hb, hsg⟩, if_pos ⟨by omega, Nat.le_refl _⟩]
    show (if d.pointer + ((mem.drop s.pointer).take (byteSize s)).length ≤ mem.length then _ else _ : Option Mem).bind _ = _
    rw [hlen, if_pos (by omega)]
    rfl
  · simp only [List.length_append, List.length_take, List.length_drop]; omega
  · have key : bits (mem.take d.pointer ++ (mem.drop s.pointer).take (byteSize s) ++ mem.drop (d.pointer + byteSize s))
        (8 * d.pointer + d.shift) d.bits = bits mem (8 * s.pointer + s.shift) s.bits := by
      apply Nat.eq_of_testBit_eq
      intro i
      rw [bits_testBit, bits_testBit, hb]
      by_cases hi : i < s.bits
      · rw [hw, if_pos (by omega), show 8 * d.pointer + d.shift + i - 8 * d.pointer = s.shift + i by omega, hsl]
        simp [show s.shift + i < 8 * byteSize s by omega, Nat.add_assoc]
      · simp [hi]
    rw [value_decode _ _ _ (by omega), value_decode _ _ _ h0, key, hb, hsg]
  · intro i hi
    rw [hw, if_neg (by omega)]

/-- **C65, equal types fail.**  A field of four bits at bit 0 (value 5) to one of the same type at bit 4 of another
byte: the whole byte is copied, the destination gets 0 and the bits below it, that belong to something else, get 5. -/
theorem c65_same_type_fails :
    convertInteger [0x05, 0x3c] ⟨1, 4, 4, false⟩ ⟨0, 0, 4, false⟩ = some (true, [0x05, 0x05]) ∧
    value [0x05, 0x3c] 0 4 false = 5 ∧ value [0x05, 0x05] (8 + 4) 4 false = 0 ∧
    value [0x05, 0x3c] 8 4 false = 12 ∧ value [0x05, 0x05] 8 4 false = 5 := by decide +kernel

/-- **C65, large sizes fail.**  A source of 255 bits at shift 1: its end is computed in eight bits, is taken for a
field of one byte, and 32 bytes are copied over a variable of one. -/
theorem c65_size_fails (mem : Mem) :
    bitSetToBitSet 1 mem ⟨0, 0, 8, false⟩ ⟨1, 1, 255, false⟩ = none := by
  unfold bitSetToBitSet
  show ((bsToBS (uintWord 8) mem 0 0 8 false 1 1 255 false).map (true, ·)).bind _ = none
  have : readBytes mem 1 ((255 + 1 + 7) / 8) (uintWord 8).size = none := by
    unfold readBytes
    rw [if_neg]
    intro h
    exact absurd h.2 (by decide)
  unfold bsToBS
  simp only [this]
  rfl

/-- The hypotheses can be met: `-300` of sixteen bits to a signed field of eight bits at bit 3 is `-128`, and the three
bits before it and the five after it stay. -/
example : bitSetToBitSet 1 [0xd4, 0xfe, 0x05, 0xa8] ⟨2, 3, 8, true⟩ ⟨0, 0, 16, true⟩
      = some (true, [0xd4, 0xfe, 0x05, 0xac], (2, 11), (0, 16)) ∧
    value [0xd4, 0xfe, 0x05, 0xa8] 0 16 true = -300 ∧ value [0xd4, 0xfe, 0x05, 0xac] 19 8 true = -128 ∧
    clamp 8 true (-300) = -128 := by decide +kernel

end Verif.BitConvert
