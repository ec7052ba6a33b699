/-!
# Data source memory layout and (de)interleaving

`Source/Core/BareMetal/L5GAMs/MemoryDataSourceI.cpp` 76-123 and 158-181, `GAMDataSource.cpp` 139-182,
`Source/Core/BareMetal/L1Portability/MemoryOperationsHelper.h` 161-225. `uint32` quantities are natural numbers reduced modulo 2^32 after
every operation of the allocation, as in the code.
-/

namespace Verif.Layout

def u32 (n : Nat) : Nat := n % 4294967296

/-- `MemoryDataSourceI.cpp:91-109`: the offsets of the signals and the final `stateMemorySize`, or `none` when a size is zero. -/
def allocLoop (nb : Nat) : List Nat → Nat → Option (List Nat × Nat)
  | [], acc => some ([], acc)
  | z :: zs, acc =>
    if z > 0 then (allocLoop nb zs (u32 (acc + u32 (z * nb)))).map fun r => (acc :: r.1, r.2) else none

/-- What `AllocateMemory` computes. -/
structure Layout where
  offsets : List Nat
  stateMemorySize : Nat
  totalMemorySize : Nat
deriving DecidableEq

/-- `MemoryDataSourceI.cpp:76-123` `AllocateMemory`, for the signal sizes, `numberOfBuffers` and the number of state buffers. The heap is
taken to succeed. -/
def allocate (sizes : List Nat) (nb nState : Nat) : Option Layout :=
  (allocLoop nb sizes 0).bind fun r =>
    if nState > 0 then some ⟨r.1, r.2, u32 (r.2 * nState)⟩ else none

/-- `MemoryDataSourceI.cpp:158-181` `GetSignalMemoryBuffer`: the offset of the signal from the start of the allocated memory. -/
def signalBuffer (l : Layout) (nState : Nat) (signalIdx bufferIdx : Nat) : Option Nat :=
  if bufferIdx < nState then (l.offsets[signalIdx]?).map fun o => u32 (l.stateMemorySize * bufferIdx) + o else none

abbrev Mem := Nat → UInt8

/-- A sequence of byte assignments `mem[dst] = mem[src]`. -/
def assign : List (Nat × Nat) → Mem → Mem
  | [], m => m
  | p :: ps, m => assign ps (fun a => if a = p.1 then m p.2 else m a)

/-- `MemoryOperationsHelper.h:176-190`: the members of the packet `k`; `dest` and `source` are the running pointers. -/
def toFlatMembers (n k : Nat) : List Nat → Nat → Nat → List (Nat × Nat)
  | [], _, _ => []
  | c :: cs, dest, source =>
    ((List.range c).map fun j => (dest + k * c + j, source + j)) ++ toFlatMembers n k cs (dest + k * c + (n - k) * c) (source + c)

/-- `MemoryOperationsHelper.h:161-192` `InterleavedToFlat`; `members` are the sizes from `beginIndex` on. -/
def interleavedToFlat (src dst : Nat) (members : List Nat) (packet n : Nat) : List (Nat × Nat) :=
  (List.range n).flatMap fun k => toFlatMembers n k members dst (src + k * packet)

/-- `MemoryOperationsHelper.h:209-222`. -/
def toInterMembers (n k : Nat) : List Nat → Nat → Nat → List (Nat × Nat)
  | [], _, _ => []
  | c :: cs, source, dest =>
    ((List.range c).map fun j => (dest + j, source + k * c + j)) ++ toInterMembers n k cs (source + k * c + (n - k) * c) (dest + c)

/-- `MemoryOperationsHelper.h:194-225` `FlatToInterleaved`. -/
def flatToInterleaved (src dst : Nat) (members : List Nat) (packet n : Nat) : List (Nat × Nat) :=
  (List.range n).flatMap fun k => toInterMembers n k members src (dst + k * packet)

end Verif.Layout
