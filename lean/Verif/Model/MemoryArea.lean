/-!
# Model of a growing area of memory

`BareMetal/L1Portability/MemoryArea.cpp`.  A block is the list of its bytes.  The heap is an argument of each operation: whether it
gives memory, and what is in the new memory.  `lost` counts the blocks whose address is overwritten without `Free`.  A source of
`Add` inside the area itself, and the name of the heap, are not modelled.
-/
namespace Verif.MemoryArea

/-- `MemoryArea.h:141-156`: the fields `memory` (`none`: `NULL`) and `size`. -/
structure Area where
  memory : Option (List UInt8)
  size : Nat
  lost : Nat
deriving DecidableEq, Repr

/-- `MemoryArea.cpp:47-51`: the constructor. -/
def empty : Area := ⟨none, 0, 0⟩

/-- What the heap answers: memory or not, and the bytes in it. -/
structure Heap where
  gives : Bool
  junk : Nat → UInt8

/-- The bytes of new memory, from the position `i`. -/
def fresh (h : Heap) (i n : Nat) : List UInt8 := (List.range n).map fun k => h.junk (i + k)

/-- `HeapManager::Malloc`. -/
def malloc (h : Heap) (n : Nat) : Option (List UInt8) := if h.gives then some (fresh h 0 n) else none

/-- `HeapManager::Realloc`: the bytes that were there are kept; if it fails the old block stays as it is. -/
def realloc (h : Heap) (m : Option (List UInt8)) (n : Nat) : Option (List UInt8) :=
  if h.gives then some ((m.getD []).take n ++ fresh h (m.getD []).length (n - (m.getD []).length)) else none

/-- `MemoryArea.cpp:59-70` `InitMemory`. -/
def initMemory (bytes : List UInt8) (a : Area) : Bool × Area :=
  if a.memory = none then (true, { a with memory := some bytes, size := bytes.length }) else (false, a)

/-- `MemoryArea.cpp:72-85` `Free`, when the heap frees the block. -/
def free (a : Area) : Area := { a with memory := none, size := 0 }

/-- `MemoryArea.cpp:91-113` `Add`: the offset, if it succeeds. -/
def add (h : Heap) (n : Nat) (a : Area) : Option Nat × Area :=
  if a.size = 0 then
    match malloc h n with
    | some m => (some 0, ⟨some m, n, a.lost + (if a.memory = none then 0 else 1)⟩)
    | none => (none, ⟨none, 0, a.lost + (if a.memory = none then 0 else 1)⟩)
  else
    match realloc h a.memory ((a.size + n) % 2 ^ 32) with
    | some m => (some a.size, ⟨some m, (a.size + n) % 2 ^ 32, a.lost⟩)
    | none => (none, ⟨none, a.size, a.lost + (if a.memory = none then 0 else 1)⟩)

/-- Bytes written in a block, `none` if they do not fit. -/
def put (m : List UInt8) (o : Nat) (src : List UInt8) : Option (List UInt8) :=
  if o + src.length ≤ m.length then some (m.take o ++ src ++ m.drop (o + src.length)) else none

/-- `MemoryArea.cpp:116-124` `Add` with a source; `none`: bytes are written out of the block. -/
def addFrom (h : Heap) (src : List UInt8) (a : Area) : Option (Option Nat × Area) :=
  match add h src.length a with
  | (none, a) => some (none, a)
  | (some o, a) =>
    match a.memory with
    | none => none
    | some m => (put m o src).map fun m => (some o, { a with memory := some m })

/-- An address in the area: the block (`none`: the address is not in any block, being counted from `NULL`) and the place in it. -/
structure Address where
  block : Option (List UInt8)
  place : Nat
deriving DecidableEq, Repr

/-- `MemoryArea.cpp:135-142` `GetPointer`; `none`: `NULL`. -/
def getPointer (a : Area) (offset : Nat) : Option Address :=
  if offset < a.size then some ⟨a.memory, offset⟩ else none

/-- The operations. -/
inductive Op where
  | init (bytes : List UInt8)
  | add (h : Heap) (n : Nat)
  | addFrom (h : Heap) (src : List UInt8)
  | free

/-- One operation: what it answers (the offset; the truth of `InitMemory` is 0 or nothing). -/
def step : Op → Area → Option (Option Nat × Area)
  | .init bytes, a => some (if (initMemory bytes a).1 then some 0 else none, (initMemory bytes a).2)
  | .add h n, a => some (add h n a)
  | .addFrom h src, a => addFrom h src a
  | .free, a => some (none, free a)

/-- A history: the answers and the area at the end. -/
def run : List Op → Area → Option (List (Option Nat) × Area)
  | [], a => some ([], a)
  | op :: ops, a =>
    match step op a with
    | none => none
    | some (r, a) => (run ops a).map fun q => (r :: q.1, q.2)

end Verif.MemoryArea
