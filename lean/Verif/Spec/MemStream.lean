import Verif.Model.MemStream
/-
What a stream over the memory of the caller should do: the memory, how much of it is the content, and a cursor.  Uses only the
types of calls and results of the model.
-/
namespace Verif.Spec.MemStream
open Verif.Model.MemStream (Op Out)

/-- The memory, the size of the content (its first bytes), the cursor, and if it can be written. -/
structure File where
  memory : List UInt8
  used : Nat
  pos : Nat
  canWrite : Bool
deriving DecidableEq, Repr

/-- The memory with `bs` in the place of its bytes from `p` on. -/
def place (memory : List UInt8) (p : Nat) (bs : List UInt8) : List UInt8 :=
  memory.take p ++ bs ++ memory.drop (p + bs.length)

/-- What each call should do. -/
def step (f : File) : Op → Out × File
  | .read n =>
    let bs := ((f.memory.take f.used).drop f.pos).take n
    (⟨true, bs, bs.length⟩, { f with pos := f.pos + bs.length })
  | .write bs =>
    if f.canWrite then
      let bs := bs.take (f.memory.length - f.pos)
      (⟨true, [], bs.length⟩,
        { f with memory := place f.memory f.pos bs, pos := f.pos + bs.length, used := max f.used (f.pos + bs.length) })
    else (⟨false, [], bs.length⟩, f)
  | .size => (⟨true, [], f.used⟩, f)
  | .setSize n =>
    (⟨decide (n ≤ f.memory.length), [], 0⟩, { f with used := min n f.memory.length, pos := min f.pos n })
  | .seek p => (⟨decide (p ≤ f.used), [], 0⟩, { f with pos := min p f.used })
  | .relativeSeek d =>
    if -2147483648 ≤ d ∧ d ≤ 2147483647 then
      (⟨decide (0 ≤ f.pos + d ∧ f.pos + d ≤ f.used), [], 0⟩, { f with pos := (min (f.pos + d) f.used).toNat })
    else (⟨false, [], 0⟩, f)
  | .position => (⟨true, [], f.pos⟩, f)
  | .canWrite => (⟨f.canWrite, [], 0⟩, f)

/-- What a sequence of calls should do. -/
def run (f : File) : List Op → List Out × File
  | [] => ([], f)
  | op :: ops => ((step f op).1 :: (run (step f op).2 ops).1, (run (step f op).2 ops).2)

/-- The calls for which the code does what it should: no move back (unless the cursor is at the beginning), no size below the
cursor, and sizes below 2^32. -/
def Allowed (f : File) : Op → Prop
  | .relativeSeek d => 0 ≤ d ∨ f.pos = 0 ∨ d < -2147483648
  | .setSize n => f.pos ≤ n ∧ n < 2 ^ 32
  | _ => True

def AllAllowed (f : File) : List Op → Prop
  | [] => True
  | op :: ops => Allowed f op ∧ AllAllowed (step f op).2 ops

end Verif.Spec.MemStream
