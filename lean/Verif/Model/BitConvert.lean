import Verif.Model.DoubleInteger
/-!
# Model of `BareMetal/L3Streams/BitSetToInteger.h` and of the conversions between integers of
`BareMetal/L4Configuration/TypeConversion.cpp`

The memory is a list of bytes and an address is an index into it.  An access outside of the list, and a copy of more
bytes than the local variable has, is undefined: `none`.  The machine is little endian.
The code computes with `uint8`, `uint16`, `uint32`, `uint64` and `DoubleInteger<uint64>`: the type is an argument
(`Word`), its operators are those of the bits.
-/
namespace Verif.BitConvert
open Verif.DoubleInteger

abbrev Byte := BitVec 8
abbrev Mem := List Byte

/-- `static_cast<uint8>`. -/
def u8 (n : Nat) : Nat := n % 256

/-- The number that little endian bytes stand for. -/
def leNat : List Byte → Nat
  | [] => 0
  | b :: bs => b.toNat + 256 * leNat bs

/-- The `k` least significant bytes of a number. -/
def leBytes : Nat → Nat → List Byte
  | 0, _ => []
  | k + 1, x => BitVec.ofNat 8 x :: leBytes k (x / 256)

/-- The operations that the template uses of its type `T`. -/
structure Word (α : Type) where
  /-- `sizeof(T)`. -/
  size : Nat
  /-- `static_cast<T>(k)`, for `k` zero or one. -/
  lit : Nat → α
  not : α → α
  and : α → α → α
  or : α → α → α
  sub : α → α → α
  gt : α → α → Bool
  ne : α → α → Bool
  /-- `Shift::LogicalRightSafeShift`. -/
  shr : α → Nat → α
  /-- `Shift::LogicalLeftSafeShift`. -/
  shl : α → Nat → α
  /-- `MemoryOperationsHelper::Copy` of the bytes into a variable that is zero. -/
  load : List Byte → α
  /-- `MemoryOperationsHelper::Copy` of the `k` first bytes of a variable. -/
  store : α → Nat → List Byte

/-- `uint8`, `uint16`, `uint32`, `uint64`: the type of `w` bits (`Shift.h:187-259`). -/
def uintWord (w : Nat) : Word (BitVec w) where
  size := w / 8
  lit := BitVec.ofNat w
  not := (~~~ ·)
  and := (· &&& ·)
  or := (· ||| ·)
  sub := (· - ·)
  gt := fun a b => b.ult a
  ne := fun a b => a ≠ b
  shr := fun a k => if k ≥ w then 0 else a >>> k
  shl := fun a k => if k ≥ w then 0 else a <<< k
  load := fun bs => BitVec.ofNat w (leNat bs)
  store := fun a k => leBytes k a.toNat

/-- `DoubleInteger<uint64>` (`DoubleInteger.h`, `Shift.h:187-213,281-326`). -/
def dblWord : Word (Dbl 64) where
  size := 16
  lit := fun k => ofT 64 true (BitVec.ofNat 32 k)
  not := DoubleInteger.not
  and := DoubleInteger.and
  or := DoubleInteger.or
  sub := DoubleInteger.sub false
  gt := DoubleInteger.gt false
  ne := DoubleInteger.ne
  shr := logicalShrSafe false
  shl := shlSafe false
  load := fun bs => ⟨BitVec.ofNat 64 (leNat (bs.take 8)), BitVec.ofNat 64 (leNat (bs.drop 8))⟩
  store := fun a k => (leBytes 8 a.lower.toNat ++ leBytes 8 a.upper.toNat).take k

/-- `MemoryOperationsHelper::Copy` from the memory: `k` bytes at `p`, into a variable of `size` bytes. -/
def readBytes (mem : Mem) (p k size : Nat) : Option (List Byte) :=
  if p + k ≤ mem.length ∧ k ≤ size then some ((mem.drop p).take k) else none

/-- `MemoryOperationsHelper::Copy` to the memory. -/
def writeBytes (mem : Mem) (p : Nat) (bs : List Byte) : Option Mem :=
  if p + bs.length ≤ mem.length then some (mem.take p ++ bs ++ mem.drop (p + bs.length)) else none

/-- `BitSetToInteger.h:182-267` The part of `BSToBS` that computes the value to store, from the bytes of the source. -/
def bsValue {α : Type} (o : Word α) (dBits : Nat) (dSigned : Bool) (source : List Byte) (sShift sBits : Nat)
    (sSigned : Bool) : α :=
  let dataSize := u8 (o.size * 8)
  let sourceMask := o.shr (o.not (o.lit 0)) (u8 (dataSize + 256 - sBits))
  let destinationMask := o.shr (o.not (o.lit 0)) (u8 (dataSize + 256 - dBits))
  let sourceSignMask := o.shl (o.lit 1) (u8 (sBits + 255))
  let destinationSignMask := o.shl (o.lit 1) (u8 (dBits + 255))
  let sourceCopy := o.and (o.shr (o.load source) sShift) sourceMask
  let signBit := o.and sourceCopy sourceSignMask
  let sourceIsNegative := sSigned && o.ne signBit (o.lit 0)
  if sourceIsNegative then
    if !dSigned then o.lit 0
    else if sBits > dBits then
      let mask := o.sub sourceMask (o.shr destinationMask 1)
      if o.ne (o.and sourceCopy mask) mask then destinationSignMask else sourceCopy
    else
      let mask := o.sub destinationMask sourceMask
      o.or sourceCopy mask
  else
    let maxPositiveValue := if dSigned then o.shr destinationMask 1 else destinationMask
    if o.gt sourceCopy maxPositiveValue then maxPositiveValue else sourceCopy

/-- `BitSetToInteger.h:269-289` The word to write: the value in its place and the other bits of the destination. -/
def bsMerge {α : Type} (o : Word α) (value : α) (destination : List Byte) (dShift dBits : Nat) : α :=
  let destinationMask := o.shr (o.not (o.lit 0)) (u8 (u8 (o.size * 8) + 256 - dBits))
  let destinationMask := o.not (o.shl destinationMask dShift)
  o.or (o.shl value dShift) (o.and destinationMask (o.load destination))

/-- `BitSetToInteger.h:170-295` `BSToBS`. -/
def bsToBS {α : Type} (o : Word α) (mem : Mem) (destination dShift dBits : Nat) (dSigned : Bool)
    (source sShift sBits : Nat) (sSigned : Bool) : Option Mem := do
  let sourceByteSize := (sBits + sShift + 7) / 8
  let sourceBytes ← readBytes mem source sourceByteSize o.size
  let value := bsValue o dBits dSigned sourceBytes sShift sBits sSigned
  let destinationByteSize := (dBits + dShift + 7) / 8
  let destinationBytes ← readBytes mem destination destinationByteSize o.size
  writeBytes mem destination (o.store (bsMerge o value destinationBytes dShift dBits) destinationByteSize)

/-- A bit field: the pointer, the shift and the size; the type of its value. -/
structure Field where
  pointer : Nat
  shift : Nat
  bits : Nat
  signed : Bool
deriving DecidableEq, Repr

/-- `BitSetToInteger.h:324-337` The pointer goes to the element of the granularity (`g` bytes) that holds the first
bit (`index * g` is `(shift >> granularityShift) * sizeof(T)`). -/
def normalise (g : Nat) (pointer shift : Nat) : Nat × Nat :=
  if shift ≥ 8 * g then (pointer + shift / (8 * g) * g, shift % (8 * g)) else (pointer, shift)

/-- `BitSetToInteger.h:297-396` `BitSetToBitSet` with pointers to a type of `g` bytes (1, 2, 4, 8 or 16): the result,
the memory and the new pointers and shifts of the destination and of the source (all of them are references). -/
def bitSetToBitSet (g : Nat) (mem : Mem) (d s : Field) :
    Option (Bool × Mem × (Nat × Nat) × (Nat × Nat)) := do
  let granularity := u8 (8 * g)
  let (source, sShift) := normalise g s.pointer s.shift
  let (destination, dShift) := normalise g d.pointer d.shift
  let sourceBitEnd := u8 (sShift + s.bits)
  let destinationBitEnd := u8 (dShift + d.bits)
  let (ret, mem) ←
    if sourceBitEnd ≤ 8 ∧ destinationBitEnd ≤ 8 ∧ granularity = 8 then
      (bsToBS (uintWord 8) mem destination dShift d.bits d.signed source sShift s.bits s.signed).map (true, ·)
    else if sourceBitEnd ≤ 16 ∧ destinationBitEnd ≤ 16 ∧ granularity ≤ 16 then
      (bsToBS (uintWord 16) mem destination dShift d.bits d.signed source sShift s.bits s.signed).map (true, ·)
    else if sourceBitEnd ≤ 32 ∧ destinationBitEnd ≤ 32 ∧ granularity ≤ 32 then
      (bsToBS (uintWord 32) mem destination dShift d.bits d.signed source sShift s.bits s.signed).map (true, ·)
    else if sourceBitEnd ≤ 64 ∧ destinationBitEnd ≤ 64 ∧ granularity ≤ 64 then
      (bsToBS (uintWord 64) mem destination dShift d.bits d.signed source sShift s.bits s.signed).map (true, ·)
    else if sourceBitEnd ≤ 128 ∧ destinationBitEnd ≤ 128 ∧ granularity ≤ 128 then
      (bsToBS dblWord mem destination dShift d.bits d.signed source sShift s.bits s.signed).map (true, ·)
    else some (false, mem)
  return (ret, mem, (destination, u8 (dShift + d.bits)), (source, u8 (sShift + s.bits)))

/-- `AnyType.h:1440-1463` `GetByteSize` of an integer: its bits and its bit address. -/
def byteSize (f : Field) : Nat := (f.bits + f.shift + 7) / 8

/-- `TypeConversion.cpp:1004-1050,214-252` `ScalarBasicTypeConvert` and `IntegerToType` when the destination and the
source are integers: equal descriptors are copied byte by byte, the others are converted.  The numbers of bits of the
descriptors are cast to `uint8`. -/
def convertInteger (mem : Mem) (d s : Field) : Option (Bool × Mem) :=
  if d.bits = s.bits ∧ d.signed = s.signed then do
    let bs ← readBytes mem s.pointer (byteSize s) (byteSize s)
    let mem ← writeBytes mem d.pointer bs
    return (true, mem)
  else do
    let (ret, mem, _, _) ← bitSetToBitSet 1 mem { d with bits := u8 d.bits } { s with bits := u8 s.bits }
    return (ret, mem)

end Verif.BitConvert
