/-!
# Model of `BareMetal/L0Types/CRC.h`

`CRC<T>` is instantiated for unsigned types; the constructor computes a 32-bit mask, so the code is
meaningful for `T` of 8, 16 and 32 bits.  `T` is `BitVec w`; theorems ask `8 ≤ w` (and the C++
instances are `w = 8, 16, 32`).
-/
namespace Verif.CRC

/-- `CRC.h:143-151` body of the inner loop: test the top bit with `mask`, shift, xor with `pol`. -/
def tableStep {w : Nat} (pol cur : BitVec w) : BitVec w :=
  if cur &&& (1#w <<< (w - 1)) ≠ 0#w then (cur <<< 1) ^^^ pol else cur <<< 1

/-- `CRC.h:143` the inner loop, `n` iterations. -/
def tableLoop {w : Nat} (pol : BitVec w) : Nat → BitVec w → BitVec w
  | 0, cur => cur
  | n + 1, cur => tableLoop pol n (tableStep pol cur)

/-- `CRC.h:130-155` `ComputeTable`: entry `d` starts as `d << shift`, `shift = w - 8`, and goes through
eight iterations. -/
def table (w : Nat) (pol : BitVec w) : List (BitVec w) :=
  (List.range 256).map (fun d => tableLoop pol 8 (BitVec.ofNat w d <<< (w - 8)))

/-- `CRC.h:165-168` one byte: `pos = ((crc >> shift) ^ byte) & 0xFF`, `crc = table[pos] ^ (crc << 8)`,
`crc &= maskInv` where `maskInv` has all `w` bits set. `pos < 256`, so the lookup is in range. -/
def byteStep {w : Nat} (tbl : List (BitVec w)) (crc : BitVec w) (byte : BitVec 8) : BitVec w :=
  let pos := ((crc >>> (w - 8)).toNat ^^^ byte.toNat) &&& 0xFF
  (tbl.getD pos 0 ^^^ (crc <<< 8)) &&& BitVec.allOnes w

/-- `CRC.h:158-172` `Compute`.  `data` is the memory around the pointer argument: the byte at index `b`
or, with `inputInverted`, at index `-b`; a negative `size` runs no iteration. -/
def compute {w : Nat} (tbl : List (BitVec w)) (data : Int → BitVec 8) (size : Nat) (initCRC : BitVec w)
    (inputInverted : Bool) : BitVec w :=
  (List.range size).foldl
    (fun crc (b : Nat) => byteStep tbl crc (data (if inputInverted then -(b : Int) else (b : Int)))) initCRC

end Verif.CRC
