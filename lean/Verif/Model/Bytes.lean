/-!
# Byte memories

A memory block is the list of its bytes.  Access outside the block is `none`: the model makes the
undefined behaviour of the C++ pointer arithmetic visible.
-/
namespace Verif.Bytes

/-- Reading `len` bytes at `off` (source side of `memcpy`/`memmove`). -/
def read (mem : List UInt8) (off len : Nat) : Option (List UInt8) :=
  if off + len ≤ mem.length then some ((mem.drop off).take len) else none

/-- Writing bytes at `off` (destination side of `memcpy`/`memmove`). -/
def write (mem : List UInt8) (off : Nat) (bs : List UInt8) : Option (List UInt8) :=
  if off + bs.length ≤ mem.length then some (mem.take off ++ bs ++ mem.drop (off + bs.length)) else none

/-- `MemoryOperationsHelper_CLIB_Generic.cpp:114` `Move` (memmove): source and destination may overlap. -/
def move (mem : List UInt8) (dst src len : Nat) : Option (List UInt8) :=
  (read mem src len).bind (write mem dst)

theorem read_append (a b c : List UInt8) : read (a ++ b ++ c) a.length b.length = some b := by
  simp [read]

theorem write_append (a b b' c : List UInt8) (h : b'.length = b.length) :
    write (a ++ b ++ c) a.length b' = some (a ++ b' ++ c) := by
  have : a.length + b'.length ≤ (a ++ b ++ c).length := by simp; omega
  simp only [write, this, if_true]
  simp [List.append_assoc, List.take_append, List.drop_append, h]

end Verif.Bytes
