/-!
# Multi-buffer (circular) brokers

`Source/Core/BareMetal/L5GAMs/MemoryMapMultiBufferBroker.cpp`. `CopyInputs` (lines 70-149) and `CopyOutputs` (152-217) split one
copy into the same pieces; only the direction of the `Copy` differs. Quantities are `int32` in the code; overflow of `int32` (areas of
2 GiB and more) is not modelled.
-/

namespace Verif.MultiBuffer

/-- One `MemoryOperationsHelper::Copy` call: offset in the function memory, position in the data source memory counted from the
base of the circular buffer of the signal (the table pointer already includes the copy offset), and size. -/
structure Chunk where
  gam : Nat
  ds : Int
  size : Nat
deriving DecidableEq

/-- `MemoryMapMultiBufferBroker.cpp:91-94` and `172-175`: the `while` loop; `fuel` bounds the number of iterations. -/
def wrapDown (max co : Int) : Nat → Int → Int × Bool
  | 0, off => (off, false)
  | f + 1, off => if co + off ≥ max then ((wrapDown max co f (off - max)).1, true) else (off, false)

/-- `MemoryMapMultiBufferBroker.cpp:129-135` and `199-205`. -/
def fullCopies (max : Int) (pos : Int) : Nat → Nat → List Chunk
  | 0, _ => []
  | z + 1, gam => ⟨gam, pos, max.toNat⟩ :: fullCopies max pos z (gam + max.toNat)

/-- `MemoryMapMultiBufferBroker.cpp:101-107`. -/
def overSize0 (max size : Int) : Int := size % max
def isMultiple (max size : Int) : Bool := decide ((size - overSize0 max size) % max = 0) && decide (size > overSize0 max size)

/-- `MemoryMapMultiBufferBroker.cpp:111-114`. -/
def overSize (max size : Int) : Int := if isMultiple max size then overSize0 max size + max else overSize0 max size
def numberOfFullCopies (max size : Int) : Int :=
  if isMultiple max size then (size - overSize0 max size) / max - 1 else (size - overSize0 max size) / max

/-- `MemoryMapMultiBufferBroker.cpp:95-143` and `176-211`: the copies once the offset has been reduced. -/
def pieces (max co size off : Int) (changed : Bool) : List Chunk :=
  if ¬ changed ∧ size > max - (co + off) then
    if overSize max size > max - (co + off) then
      ⟨0, co + off, (max - off).toNat⟩ ::
        (fullCopies max co (numberOfFullCopies max size).toNat (max - off).toNat ++
          [⟨(max - off).toNat + (numberOfFullCopies max size).toNat * max.toNat, co,
            (size - max * numberOfFullCopies max size - (max - off)).toNat⟩])
    else
      fullCopies max (co + off) (numberOfFullCopies max size).toNat 0 ++
        [⟨(numberOfFullCopies max size).toNat * max.toNat, co + off, (size - max * numberOfFullCopies max size).toNat⟩]
  else [⟨0, co + off, size.toNat⟩]

/-- One copy of `CopyInputs`/`CopyOutputs`: ring of `max` bytes, copy offset `co`, offset `off` given by the data source. -/
def copyChunks (max co size off : Int) : List Chunk :=
  pieces max co size (wrapDown max co ((co + off).toNat + 1) off).1 (wrapDown max co ((co + off).toNat + 1) off).2

/-- The bytes accessed: (offset in the function memory, position in the data source memory). -/
def accesses (cs : List Chunk) : List (Nat × Int) := cs.flatMap fun c => (List.range c.size).map fun k => (c.gam + k, c.ds + (k : Int))

end Verif.MultiBuffer
