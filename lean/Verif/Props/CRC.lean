import Verif.Model.CRC

namespace Verif.Spec.CRC

/-- One step of the textbook division register: the incoming message bit is added to the outgoing top bit
of the register; if the sum is one the generator polynomial is added after the shift. -/
def bitStep {w : Nat} (pol reg : BitVec w) (bit : Bool) : BitVec w :=
  (reg <<< 1) ^^^ (if reg.msb ^^ bit then pol else 0)

/-- The bits of a byte, most significant first. -/
def bitsMsbFirst (b : BitVec 8) : List Bool :=
  [b.getLsbD 7, b.getLsbD 6, b.getLsbD 5, b.getLsbD 4, b.getLsbD 3, b.getLsbD 2, b.getLsbD 1, b.getLsbD 0]

/-- CRC of a message: all its bits through the register. -/
def crc {w : Nat} (pol init : BitVec w) (msg : List (BitVec 8)) : BitVec w :=
  (msg.flatMap bitsMsbFirst).foldl (bitStep pol) init

end Verif.Spec.CRC

namespace Verif.CRC
open Verif.Spec.CRC

theorem tableStep_eq {w : Nat} (hw : 1 ≤ w) (pol cur : BitVec w) :
    tableStep pol cur = (cur <<< 1) ^^^ (if cur.msb then pol else 0) := by
  have h : (cur &&& (1#w <<< (w - 1)) ≠ 0#w) ↔ cur.msb = true := by
    rw [BitVec.msb_eq_getLsbD_last]
    constructor
    · intro hne
      by_cases hb : cur.getLsbD (w - 1) = true
      · exact hb
      · exfalso; apply hne
        apply BitVec.eq_of_getLsbD_eq
        intro i hi
        simp only [BitVec.getLsbD_and, BitVec.getLsbD_shiftLeft, BitVec.getLsbD_zero]
        by_cases hi' : i = w - 1
        · subst hi'; simp [hb]
        · have : i < w - 1 := by omega
          simp [this]
    · intro hb hz
      have := congrArg (fun v => v.getLsbD (w - 1)) hz
      simp [hb] at this
      omega
  unfold tableStep
  by_cases hm : cur.msb = true
  · rw [if_pos (h.mpr hm), if_pos hm]
  · rw [if_neg (fun hc => hm (h.mp hc)), if_neg hm]; simp

theorem tableStep_xor {w : Nat} (hw : 1 ≤ w) (pol a b : BitVec w) :
    tableStep pol (a ^^^ b) = tableStep pol a ^^^ tableStep pol b := by
  rw [tableStep_eq hw, tableStep_eq hw, tableStep_eq hw, BitVec.shiftLeft_xor_distrib, BitVec.msb_xor]
  cases a.msb <;> cases b.msb <;> simp <;>
    (apply BitVec.eq_of_getLsbD_eq; intro i hi; simp only [BitVec.getLsbD_xor]) <;>
    cases (a <<< 1).getLsbD i <;> cases (b <<< 1).getLsbD i <;> cases pol.getLsbD i <;> rfl

theorem tableLoop_xor {w : Nat} (hw : 1 ≤ w) (pol : BitVec w) (n : Nat) (a b : BitVec w) :
    tableLoop pol n (a ^^^ b) = tableLoop pol n a ^^^ tableLoop pol n b := by
  induction n generalizing a b with
  | zero => rfl
  | succ n ih => simp only [tableLoop, tableStep_xor hw, ih]

/-- With the `n` top bits clear, `n` iterations just shift. -/
theorem tableLoop_low {w : Nat} (hw : 1 ≤ w) (pol : BitVec w) (n : Nat) (hn : n ≤ w) (a : BitVec w)
    (h : ∀ i, w - n ≤ i → i < w → a.getLsbD i = false) : tableLoop pol n a = a <<< n := by
  induction n generalizing a with
  | zero => simp [tableLoop]
  | succ n ih =>
    have hm : a.msb = false := by
      rw [BitVec.msb_eq_getLsbD_last]; exact h (w - 1) (by omega) (by omega)
    have e : tableStep pol a = a <<< 1 := by rw [tableStep_eq hw, hm]; simp
    rw [tableLoop, e, ih (by omega)]
    · rw [← BitVec.shiftLeft_add]; congr 1; omega
    · intro i h1 h2
      simp only [BitVec.getLsbD_shiftLeft]
      by_cases hi : i < 1
      · simp [hi]
      · rw [h (i - 1) (by omega) (by omega)]; simp

/-- Feeding the top bits of `y` one by one equals adding `y` to the register first. -/
theorem feed_eq {w : Nat} (hw : 1 ≤ w) (pol c y : BitVec w) :
    bitStep pol c y.msb ^^^ (y <<< 1) = tableStep pol (c ^^^ y) := by
  rw [tableStep_eq hw, BitVec.shiftLeft_xor_distrib, BitVec.msb_xor]
  unfold bitStep
  rw [BitVec.xor_assoc, BitVec.xor_assoc, BitVec.xor_comm (y <<< 1)]

/-- `n` steps of the register on the top bits of `y`. -/
def feed {w : Nat} (pol : BitVec w) : Nat → BitVec w → BitVec w → BitVec w
  | 0, c, _ => c
  | n + 1, c, y => feed pol n (bitStep pol c y.msb) (y <<< 1)

theorem feed_loop {w : Nat} (hw : 1 ≤ w) (pol : BitVec w) (n : Nat) (c y : BitVec w) :
    feed pol n c y ^^^ (y <<< n) = tableLoop pol n (c ^^^ y) := by
  induction n generalizing c y with
  | zero => simp [feed, tableLoop]
  | succ n ih =>
    rw [feed, tableLoop, ← feed_eq hw, ← ih, ← BitVec.shiftLeft_add]
    congr 2; omega

theorem byteStep_eq {w : Nat} (hw : 8 ≤ w) (pol crc : BitVec w) (b : BitVec 8) :
    byteStep (table w pol) crc b = (bitsMsbFirst b).foldl (bitStep pol) crc := by
  -- the spec side is `feed 8` on the byte placed in the top bits
  let y : BitVec w := b.setWidth w <<< (w - 8)
  have hy8 : y <<< 8 = 0#w := by
    apply BitVec.eq_of_getLsbD_eq
    intro i hi
    simp only [y, BitVec.getLsbD_shiftLeft, BitVec.getLsbD_setWidth, BitVec.getLsbD_zero]
    by_cases h8 : i < 8
    · simp [h8]
    · simp only [h8]; simp; omega
  have hbit : ∀ k, k < 8 → (y <<< k).msb = b.getLsbD (7 - k) := by
    intro k hk
    rw [BitVec.msb_eq_getLsbD_last]
    simp only [y, BitVec.getLsbD_shiftLeft, BitVec.getLsbD_setWidth]
    have h1 : w - 1 < w := by omega
    have h2 : ¬ (w - 1 < k) := by omega
    have h3 : w - 1 - k < w := by omega
    have h4 : ¬ (w - 1 - k < w - 8) := by omega
    have h5 : w - 1 - k - (w - 8) = 7 - k := by omega
    have h6 : 7 - k < w := by omega
    simp [h1, h2, h3, h4, h5, h6]
  have hspec : (bitsMsbFirst b).foldl (bitStep pol) crc = feed pol 8 crc y := by
    simp only [bitsMsbFirst, List.foldl_cons, List.foldl_nil, feed, ← BitVec.shiftLeft_add]
    have h0 := hbit 0 (by omega)
    simp only [BitVec.shiftLeft_zero] at h0
    rw [h0, hbit 1 (by omega), hbit (1 + 1) (by omega), hbit (1 + 1 + 1) (by omega),
      hbit (1 + 1 + 1 + 1) (by omega), hbit (1 + 1 + 1 + 1 + 1) (by omega),
      hbit (1 + 1 + 1 + 1 + 1 + 1) (by omega), hbit (1 + 1 + 1 + 1 + 1 + 1 + 1) (by omega)]
  have hfeed : feed pol 8 crc y = tableLoop pol 8 (crc ^^^ y) := by
    have := feed_loop (by omega : 1 ≤ w) pol 8 crc y
    rwa [hy8, BitVec.xor_zero] at this
  rw [hspec, hfeed]
  -- the code side
  let pos : Nat := ((crc >>> (w - 8)).toNat ^^^ b.toNat) &&& 0xFF
  have hpos : pos < 256 := by
    have : pos ≤ 0xFF := Nat.and_le_right
    omega
  let low : BitVec w := crc &&& (BitVec.allOnes w >>> 8)
  have hposbit : ∀ i, i < 8 → pos.testBit i = (crc.getLsbD (w - 8 + i) ^^ b.getLsbD i) := by
    intro i hi
    simp only [pos, Nat.testBit_and, Nat.testBit_xor, ← BitVec.getLsbD.eq_1, BitVec.getLsbD_ushiftRight]
    have : (0xFF : Nat).testBit i = true := by
      rw [show (0xFF : Nat) = 2 ^ 8 - 1 by rfl, Nat.testBit_two_pow_sub_one]; simpa using hi
    rw [this, Bool.and_true]
  have hsplit : crc ^^^ y = (BitVec.ofNat w pos <<< (w - 8)) ^^^ low := by
    apply BitVec.eq_of_getLsbD_eq
    intro i hi
    simp only [low, y, BitVec.getLsbD_xor, BitVec.getLsbD_and, BitVec.getLsbD_shiftLeft,
      BitVec.getLsbD_setWidth, BitVec.getLsbD_ofNat, BitVec.getLsbD_ushiftRight, BitVec.getLsbD_allOnes]
    by_cases h : i < w - 8
    · have : 8 + i < w := by omega
      simp [h, this]
    · have h1 : i - (w - 8) < 8 := by omega
      have h2 : i - (w - 8) < w := by omega
      have h3 : ¬ (8 + i < w) := by omega
      have h4 : w - 8 + (i - (w - 8)) = i := by omega
      rw [hposbit _ h1, h4]
      simp [h, h2, h3, hi]
  have hlow : tableLoop pol 8 low = crc <<< 8 := by
    rw [tableLoop_low (by omega) pol 8 hw]
    · apply BitVec.eq_of_getLsbD_eq
      intro i hi
      simp only [low, BitVec.getLsbD_and, BitVec.getLsbD_shiftLeft, BitVec.getLsbD_ushiftRight,
        BitVec.getLsbD_allOnes]
      by_cases h8 : i < 8
      · simp [h8]
      · have : 8 + (i - 8) < w := by omega
        simp [h8, this]
    · intro i h1 h2
      simp only [low, BitVec.getLsbD_and, BitVec.getLsbD_ushiftRight, BitVec.getLsbD_allOnes]
      have : ¬ (8 + i < w) := by omega
      simp [this]
  have htab : (table w pol).getD pos 0 = tableLoop pol 8 (BitVec.ofNat w pos <<< (w - 8)) := by
    simp [table, List.getD_eq_getElem?_getD, hpos]
  rw [hsplit, tableLoop_xor (by omega), hlow, ← htab]
  simp only [byteStep, BitVec.and_allOnes]
  rfl

/-- **C12.** For every polynomial, initial value and message, the table-driven computation returns what the
bit-by-bit division register returns on the bytes in the order in which they are visited: forward, or
backwards from the pointer with `inputInverted`.  The C++ instances are `w = 8, 16, 32`. -/
theorem c12_crc_table_is_division {w : Nat} (hw : 8 ≤ w) (pol init : BitVec w) (data : Int → BitVec 8)
    (size : Nat) (inverted : Bool) :
    compute (table w pol) data size init inverted =
      crc pol init ((List.range size).map (fun b : Nat => data (if inverted then -(b : Int) else (b : Int)))) := by
  unfold compute crc
  generalize List.range size = l
  induction l generalizing init with
  | nil => rfl
  | cons b l ih =>
    simp only [List.foldl_cons, List.map_cons, List.flatMap_cons, List.foldl_append]
    rw [ih, byteStep_eq hw]

/-- CRC-16/CCITT of a two-byte message, both ways. -/
example : compute (table 16 0x1021#16) (fun i => if i = 0 then 0x31#8 else 0x32#8) 2 0xFFFF#16 false
    = crc 0x1021#16 0xFFFF#16 [0x31#8, 0x32#8] := c12_crc_table_is_division (by decide) _ _ _ _ _

end Verif.CRC
