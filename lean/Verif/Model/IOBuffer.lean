/-
Model of the character buffer with cursor that the streams of MARTe2 are built on
(Source/Core/BareMetal/L3Streams/IOBuffer.cpp, IOBuffer.h, CharBuffer.cpp).

The allocated block is a function from byte offsets to bytes; a byte that was never
written since the block was obtained is `none`.  Pointers are offsets into the block.
Every access is checked against the size of the block: an access outside it, or a read
of a byte that was never written, gives the outcome `none` of the whole operation.
All 32 bit arithmetic wraps, as in the code.
-/
namespace Verif.Model.IOBuffer

abbrev Byte := UInt8

/-- uint32 subtraction of two values below 2^32. -/
def sub32 (a b : Nat) : Nat := if b ≤ a then a - b else a + 2 ^ 32 - b

/-- uint32 addition of two values below 2^32. -/
def add32 (a b : Nat) : Nat := if a + b < 2 ^ 32 then a + b else a + b - 2 ^ 32

/-- The fields of an IOBuffer and of the CharBuffer inside it
(IOBuffer.h 470-505, CharBuffer.h).  `gran` is the allocation granularity, a power of
two; its mask `allocationGranularityMask` is 2^32 - gran.  Only memory allocated by the
buffer itself is modelled, so it is always writable. `null` is true until the first
allocation (buffer == NULL). -/
structure Buf where
  mem : Nat → Option Byte
  size : Nat
  maxU : Nat
  amountLeft : Nat
  fillLeft : Nat
  ptr : Nat
  gran : Nat
  null : Bool

/-- The constructor IOBuffer(granularity, 0), IOBuffer.h 513-530. -/
def empty0 (gran : Nat) : Buf :=
  { mem := fun _ => none, size := 0, maxU := 0, amountLeft := 0, fillLeft := 0, ptr := 0,
    gran := gran, null := true }

/-- UsedAmountLeft, IOBuffer.h 544-546. -/
def Buf.usedAmountLeft (b : Buf) : Nat := sub32 b.amountLeft b.fillLeft
/-- Position, IOBuffer.h 548-550. -/
def Buf.position (b : Buf) : Nat := sub32 b.maxU b.amountLeft
/-- UsedSize, IOBuffer.h 552-554. -/
def Buf.usedSize (b : Buf) : Nat := sub32 b.maxU b.fillLeft

/-- The bytes stored at offsets i, i+1, ..., i+n-1 (memory copy out of the block). -/
def Buf.load (b : Buf) (i : Nat) : Nat → Option (List Byte)
  | 0 => some []
  | n + 1 =>
    if i < b.size then
      match b.mem i with
      | none => none
      | some c =>
        match b.load (i + 1) n with
        | none => none
        | some cs => some (c :: cs)
    else none

/-- Memory copy of `bs` into the block at offset i. -/
def Buf.store (b : Buf) (i : Nat) (bs : List Byte) : Option Buf :=
  if i + bs.length ≤ b.size then
    some { b with mem := fun k => if i ≤ k ∧ k < i + bs.length then bs[k - i]? else b.mem k }
  else none

/-- CharBuffer::SetBufferSize, CharBuffer.cpp 110-158: fails for sizes above the
granularity mask, otherwise (re)allocates the size rounded up to the granularity and
keeps the common part.  A reallocation to zero bytes and the exhaustion of the memory
are not modelled (`none`). -/
def Buf.setBufferSize (b : Buf) (desired : Nat) : Option (Bool × Buf) :=
  if desired > 2 ^ 32 - b.gran then some (false, b)
  else
    let needed := sub32 (add32 desired b.gran) 1 / b.gran * b.gran
    if needed = 0 then none
    else some (true,
      { b with
        mem := fun k => if b.null = false ∧ k < b.size ∧ k < needed then b.mem k else none,
        size := needed, null := false })

/-- SetBufferHeapMemory, IOBuffer.cpp 1826-1872 (the buffer never refers to foreign
memory, so lines 1832-1835 do nothing). -/
def Buf.setBufferHeapMemory (b : Buf) (desired reserved : Nat) : Option (Bool × Buf) :=
  let usedSize := if desired < reserved then 0 else b.usedSize
  let usedSize := if sub32 desired reserved < usedSize then sub32 desired reserved else usedSize
  let position := if b.position > usedSize then usedSize else b.position
  match b.setBufferSize desired with
  | none => none
  | some (ret, b) =>
    let maxU := if b.size ≤ reserved then 0 else b.size - reserved
    some (ret, { b with maxU := maxU, amountLeft := sub32 maxU position,
                        fillLeft := sub32 maxU usedSize, ptr := position })

/-- SetUsedSize, IOBuffer.cpp 1809-1820. -/
def Buf.setUsedSize (b : Buf) (desired : Nat) : Buf :=
  { b with fillLeft := sub32 b.maxU (if desired > b.maxU then b.maxU else desired) }

/-- Empty, IOBuffer.h 572-576. -/
def Buf.empty (b : Buf) : Buf :=
  { b with amountLeft := b.maxU, fillLeft := b.maxU, ptr := 0 }

/-- Seek, IOBuffer.cpp 1762-1773. -/
def Buf.seek (b : Buf) (pos : Nat) : Bool × Buf :=
  if pos ≤ b.usedSize then
    (true, { b with amountLeft := sub32 b.maxU pos, ptr := pos })
  else (false, b)

/-- RelativeSeek, IOBuffer.cpp 1777-1807.  `delta` is an int32. -/
def Buf.relativeSeek (b : Buf) (delta : Int) : Bool × Buf :=
  if delta ≥ 0 then
    let gap := delta.toNat
    let actualLeft := sub32 b.amountLeft b.fillLeft
    let ret := !decide (gap > actualLeft)
    let gap := if gap > actualLeft then actualLeft else gap
    (ret, { b with amountLeft := sub32 b.amountLeft gap, ptr := b.ptr + gap })
  else
    let gap := (-delta).toNat
    let ret := !decide (gap > b.position)
    let gap := if gap > b.position then b.position else gap
    let b := { b with amountLeft := add32 b.amountLeft gap }
    (ret, { b with ptr := sub32 b.position gap })

/-- IOBuffer::Write, IOBuffer.cpp 1921-1951: the number of bytes copied and the buffer. -/
def Buf.write (b : Buf) (bs : List Byte) : Option (Nat × Buf) :=
  let size := if bs.length > b.amountLeft then b.amountLeft else bs.length
  if size > 0 then
    match b.store b.ptr (bs.take size) with
    | none => none
    | some b =>
      let left := sub32 b.amountLeft size
      some (size, { b with ptr := b.ptr + size, amountLeft := left,
                           fillLeft := if b.fillLeft > left then left else b.fillLeft })
  else some (size, b)

/-- IOBuffer::Read, IOBuffer.cpp 1986-2008: the bytes copied out and the buffer. -/
def Buf.read (b : Buf) (size : Nat) : Option (List Byte × Buf) :=
  let maxSize := b.usedAmountLeft
  let size := if size > maxSize then maxSize else size
  if size > 0 then
    match b.load b.ptr size with
    | none => none
    | some bs => some (bs, { b with amountLeft := sub32 b.amountLeft size, ptr := b.ptr + size })
  else some ([], b)

/-- The last part of PutC, IOBuffer.h 604-614. -/
def Buf.putRaw (b : Buf) (c : Byte) : Option Buf :=
  match b.store b.ptr [c] with
  | none => none
  | some b =>
    let left := sub32 b.amountLeft 1
    some { b with ptr := b.ptr + 1, amountLeft := left,
                  fillLeft := if b.fillLeft > left then left else b.fillLeft }

end Verif.Model.IOBuffer
