import Verif.Proof.FloatInt2
/-!
# C66: floating point numbers to integers

A finite floating point number is given by the integer `x` that stands for `x / 2 ^ K`; `IsFloat p top x` (in
`Verif.Spec.FloatNum`) says that `x` is a number of a format of `p` digits.  `value` and `bit` are those of C65.
-/
namespace Verif.FloatNum
open Verif.Spec.FloatNum
open Verif.BitConvert (Mem Field)
open Verif.Spec.BitConvert (value bit)

/-- **C66, the nearest integer.**  For both formats, every type of integer and every finite number: the result is an
integer of the type, no other integer of the type is nearer, and of two that are as near it is the farther from zero. -/
theorem c66_nearest (f : Fmt) (hf : f = f32 ∨ f = f64) (bits : Nat) (hb : bits = 8 ∨ bits = 16 ∨ bits = 32 ∨ bits = 64)
    (signed : Bool) (x : Int) (hx : IsFloat f.p f.top x) :
    ∃ r, floatToInteger f bits signed (.fin x) = some r ∧ least bits signed ≤ r ∧ r ≤ greatest bits signed ∧
      ∀ j, least bits signed ≤ j → j ≤ greatest bits signed →
        (x - r * 2 ^ f.K).natAbs ≤ (x - j * 2 ^ f.K).natAbs ∧
        ((x - r * 2 ^ f.K).natAbs = (x - j * 2 ^ f.K).natAbs → j.natAbs ≤ r.natAbs) := by
  obtain ⟨r, h1, h2, h3, h4⟩ := floatToInteger_nearest f bits ⟨hf, hb⟩ signed x hx
  exact ⟨r, h1, h2, h3, h4⟩

/-- **C66, a number that is an integer of the type is kept.** -/
theorem c66_exact (f : Fmt) (hf : f = f32 ∨ f = f64) (bits : Nat) (hb : bits = 8 ∨ bits = 16 ∨ bits = 32 ∨ bits = 64)
    (signed : Bool) (i : Int) (hx : IsFloat f.p f.top (i * 2 ^ f.K)) (h1 : least bits signed ≤ i)
    (h2 : i ≤ greatest bits signed) : floatToInteger f bits signed (.fin (i * 2 ^ f.K)) = some i := by
  obtain ⟨r, e1, e2, e3, e4⟩ := c66_nearest f hf bits hb signed _ hx
  have h := (e4 i h1 h2).1
  rw [Int.sub_self] at h
  have hU : (0 : Int) < 2 ^ f.K := Int.pow_pos (by omega)
  have h0 : i * 2 ^ f.K = r * 2 ^ f.K := by
    have : (i * 2 ^ f.K - r * 2 ^ f.K).natAbs ≤ 0 := h
    omega
  rw [e1, Int.eq_of_mul_eq_mul_right (by omega) h0]

/-- **C66, infinities.**  They give the greatest and the least integer of the type. -/
theorem c66_infinite (f : Fmt) (hf : f = f32 ∨ f = f64) (bits : Nat)
    (hb : bits = 8 ∨ bits = 16 ∨ bits = 32 ∨ bits = 64) (signed : Bool) :
    floatToInteger f bits signed (.inf false) = some (greatest bits signed) ∧
    floatToInteger f bits signed (.inf true) = some (least bits signed) := by
  obtain ⟨c, hc, -, -⟩ := ofInt_max f bits ⟨hf, hb⟩ signed
  have hm := ofInt_min f bits ⟨hf, hb⟩ signed
  have emax : (if signed = true then (2 : Int) ^ (bits - 1) - 1 else 2 ^ bits - 1) = greatest bits signed := rfl
  have emin : (if signed = true then -(2 : Int) ^ (bits - 1) else 0) = least bits signed := rfl
  constructor
  · unfold floatToInteger
    simp only [emax, emin, hc]
    cases signed <;> rfl
  · unfold floatToInteger
    simp only [emax, emin, hc, hm]
    cases signed <;> rfl

/-- **C66, not a number.**  To an unsigned integer it gives zero. -/
theorem c66_nan_unsigned (f : Fmt) (bits : Nat) : floatToInteger f bits false .nan = some 0 := rfl

/-- **C66, not a number fails.**  To a signed integer the cast of the NaN is undefined behaviour. -/
theorem c66_nan_signed_fails (f : Fmt) (bits : Nat) : floatToInteger f bits true .nan = none := by
  have h1 : ∀ y, ge .nan y = false := by intro y; rfl
  have h2 : ∀ y, le .nan y = false := by intro y; cases y <;> rfl
  unfold floatToInteger
  simp [h1, h2, truncInt]

/-- **C66, in the memory.**  The conversion to an integer type stores the integer of `c66_nearest` in the destination
and changes nothing else. -/
theorem c66_memory (f : Fmt) (hf : f = f32 ∨ f = f64) (mem : Mem) (d : Field)
    (hb : d.bits = 8 ∨ d.bits = 16 ∨ d.bits = 32 ∨ d.bits = 64) (hs : d.shift = 0)
    (hm : 8 * d.pointer + d.bits ≤ 8 * mem.length) (x : Int) (hx : IsFloat f.p f.top x) :
    ∃ mem' r, floatToField f mem d (.fin x) = some (true, mem') ∧ floatToInteger f d.bits d.signed (.fin x) = some r ∧
      mem'.length = mem.length ∧ value mem' (8 * d.pointer) d.bits d.signed = r ∧
      ∀ i, i < 8 * d.pointer ∨ 8 * d.pointer + d.bits ≤ i → bit mem' i = bit mem i := by
  obtain ⟨k, hk, hk8, hc⟩ := chosen_whole d.bits hb d rfl hs
  obtain ⟨r, e1, e2, e3, -⟩ := c66_nearest f hf d.bits hb d.signed x hx
  rw [← hk8] at e2 e3
  obtain ⟨mem', w1, w2, w3, w4⟩ := write_int mem d.pointer k hk d.signed r (by omega) e2 e3
  rw [hk8] at w3 w4
  refine ⟨mem', r, ?_, e1, w2, w3, w4⟩
  unfold floatToField
  rw [hc]
  simp only [hk8, e1, w1]
  rfl

/-- **C66, large integers.**  Fields of more than 64 bits are refused and nothing is written. -/
theorem c66_large (f : Fmt) (mem : Mem) (d : Field) (h : 64 < d.bits + d.shift) (x : Flt) :
    floatToField f mem d x = some (false, mem) := by
  have : chosenSize (bitSize d) = none := by
    unfold chosenSize bitSize
    rw [if_neg (by omega), if_neg (by omega), if_neg (by omega), if_neg (by omega)]
  unfold floatToField
  rw [this]

/-- **C66, fields of bits fail.**  The number 3 to a field of four bits at bit 4 of a byte: the whole byte is written,
the field gets 0 and its neighbour 3; and 9 to a field of three bits is not the greatest of the field but 1 in it, with
the bit after it set. -/
theorem c66_bits_fails :
    floatToField f32 [0xab] ⟨0, 4, 4, false⟩ (.fin (3 * 2 ^ 149)) = some (true, [0x03]) ∧
    value [0x03] 4 4 false = 0 ∧ value [0xab] 0 4 false = 11 ∧ value [0x03] 0 4 false = 3 ∧
    floatToField f32 [0x00] ⟨0, 0, 3, false⟩ (.fin (9 * 2 ^ 149)) = some (true, [0x09]) ∧
    value [0x09] 0 3 false = 1 ∧ bit [0x00] 3 = false ∧ bit [0x09] 3 = true := by decide +kernel

/-- The hypotheses can be met: -2.5 is a number of both formats and gives -3. -/
example : IsFloat f32.p f32.top (-5 * 2 ^ 148) ∧
    floatToInteger f32 16 true (.fin (-5 * 2 ^ 148)) = some (-3) ∧
    floatToInteger f64 8 true (.fin (1000 * 2 ^ 1074)) = some 127 ∧
    floatToInteger f64 64 false (.fin (-5 * 2 ^ 1073)) = some 0 :=
  ⟨⟨⟨5, 148, by decide, by decide +kernel⟩, by decide +kernel⟩, by decide +kernel, by decide +kernel, by decide +kernel⟩

end Verif.FloatNum
