import Verif.Model.IOBuffer
/-
Model of StreamMemoryReference (Source/Core/BareMetal/L3Streams/StreamMemoryReference.cpp): a stream over memory of the
caller, on top of the buffer of Model/IOBuffer.lean.
-/
namespace Verif.Model.MemStream
open Verif.Model.IOBuffer

/-- `StreamMemoryReference`: its buffer, and `CharBuffer::CanWrite`. -/
structure Stream where
  buf : Buf
  canWrite : Bool

/-- `IOBuffer.cpp:1874-1887` `SetBufferReferencedMemory`, `SetBufferReadOnlyReferencedMemory`: the memory of the caller, which
is not `NULL`, with nothing reserved. -/
def refer (memory : List Byte) : Buf :=
  { mem := fun i => memory[i]?, size := memory.length, maxU := memory.length, amountLeft := memory.length,
    fillLeft := memory.length, ptr := 0, gran := 1, null := false }

/-- `StreamMemoryReference.cpp:51-55`, the constructor over memory that can be written. -/
def create (memory : List Byte) : Stream := ⟨refer memory, true⟩

/-- `StreamMemoryReference.cpp:57-62`, the constructor over constant memory. -/
def createConst (memory : List Byte) : Stream := ⟨(refer memory).setUsedSize memory.length, false⟩

/-- The calls of a stream. -/
inductive Op where
  | read (n : Nat)
  | write (bs : List Byte)
  | size
  | setSize (n : Nat)
  | seek (p : Nat)
  | relativeSeek (d : Int)
  | position
  | canWrite
deriving DecidableEq, Repr

/-- The value that a call returns, the bytes that it reads, the number that it gives. -/
structure Out where
  ok : Bool
  bytes : List Byte
  num : Nat
deriving DecidableEq, Repr

/-- The calls; `none` when memory outside the block is used. -/
def step (s : Stream) : Op → Option (Out × Stream)
  /- `StreamMemoryReference.cpp:82-85` and `IOBuffer::Read`. -/
  | .read n =>
    match s.buf.read n with
    | none => none
    | some (bs, b) => some (⟨true, bs, bs.length⟩, { s with buf := b })
  /- `StreamMemoryReference.cpp:87-91` and `IOBuffer::Write` (`IOBuffer.cpp:1921-1951`); a refused write leaves `size`. -/
  | .write bs =>
    if s.canWrite then
      match s.buf.write bs with
      | none => none
      | some (n, b) => some (⟨true, [], n⟩, { s with buf := b })
    else some (⟨false, [], bs.length⟩, s)
  /- `StreamMemoryReference.cpp:101-103`. -/
  | .size => some (⟨true, [], s.buf.usedSize⟩, s)
  /- `StreamMemoryReference.cpp:105-109`. -/
  | .setSize n =>
    let b := s.buf.setUsedSize (n % 2 ^ 32)
    some (⟨decide (b.usedSize = n % 2 ^ 32), [], 0⟩, { s with buf := b })
  /- `StreamMemoryReference.cpp:111-123`. -/
  | .seek p =>
    if p > s.buf.usedSize then some (⟨false, [], 0⟩, { s with buf := (s.buf.seek s.buf.usedSize).2 })
    else
      let r := s.buf.seek (p % 2 ^ 32)
      some (⟨r.1, [], 0⟩, { s with buf := r.2 })
  /- `StreamMemoryReference.cpp:125-135`. -/
  | .relativeSeek d =>
    if d > 2147483647 ∨ d < -2147483648 then some (⟨false, [], 0⟩, s)
    else
      let r := s.buf.relativeSeek d
      some (⟨r.1, [], 0⟩, { s with buf := r.2 })
  /- `StreamMemoryReference.cpp:137-139`. -/
  | .position => some (⟨true, [], s.buf.position⟩, s)
  /- `StreamMemoryReference.cpp:93-95`. -/
  | .canWrite => some (⟨s.canWrite, [], 0⟩, s)

/-- A sequence of calls: their results, and the stream that is left. -/
def run (s : Stream) : List Op → Option (List Out × Stream)
  | [] => some ([], s)
  | op :: ops =>
    match step s op with
    | none => none
    | some (o, s) =>
      match run s ops with
      | none => none
      | some (os, s) => some (o :: os, s)

/-- The memory of the caller after the calls. -/
def Stream.memory (s : Stream) : List (Option Byte) := (List.range s.buf.size).map s.buf.mem

end Verif.Model.MemStream
