/-!
# Model of `BareMetal/L0Types/DjbHashFunction.cpp` and `Fnv1aHashFunction.cpp`

`in` is `none` for a null pointer, or the bytes from the pointer to the end of the memory that can be read.  `none` as a
result is a read after that end.  `size` is any `uint32`.
-/
namespace Verif.HashFn

/-- `DjbHashFunction.cpp:55-59, 63-67` and, in 64 bits, `78-82, 86-90`: one byte. -/
def djbStep {w : Nat} (hash : BitVec w) (b : BitVec 8) : BitVec w := hash * 33 + b.setWidth w

/-- `Fnv1aHashFunction.cpp:55-59, 63-67`: one byte. -/
def fnvStep32 (hash : BitVec 32) (b : BitVec 8) : BitVec 32 := (hash ^^^ b.setWidth 32) * 0x01000193#32

/-- `Fnv1aHashFunction.cpp:79-83, 87-91`: one byte. -/
def fnvStep64 (hash : BitVec 64) (b : BitVec 8) : BitVec 64 := (hash ^^^ b.setWidth 64) * 0x00000100000001B3#64

/-- The `while` loop: to the first zero. -/
def textLoop {w : Nat} (step : BitVec w → BitVec 8 → BitVec w) : BitVec w → List (BitVec 8) → Option (BitVec w)
  | _, [] => none
  | h, b :: l => if b ≠ 0 then textLoop step (step h b) l else some h

/-- The `for` loop: `size` bytes. -/
def sizeLoop {w : Nat} (step : BitVec w → BitVec 8 → BitVec w) : Nat → BitVec w → List (BitVec 8) → Option (BitVec w)
  | 0, h, _ => some h
  | _ + 1, _, [] => none
  | n + 1, h, b :: l => sizeLoop step n (step h b) l

/-- The common body of the four functions. -/
def compute {w : Nat} (start : BitVec w) (step : BitVec w → BitVec 8 → BitVec w) (input : Option (List (BitVec 8))) (size : Nat) : Option (BitVec w) :=
  match input with
  | none => some start
  | some l => if size = 0 then textLoop step start l else sizeLoop step size start l

/-- `DjbHashFunction.cpp:50-71` `Compute`. -/
def djb32 := compute 5381#32 djbStep

/-- `DjbHashFunction.cpp:73-94` `Compute64`. -/
def djb64 := compute 5381#64 djbStep

/-- `Fnv1aHashFunction.cpp:49-71` `Compute`. -/
def fnv32 := compute 0x811c9dc5#32 fnvStep32

/-- `Fnv1aHashFunction.cpp:73-95` `Compute64`. -/
def fnv64 := compute 0xcbf29ce484222325#64 fnvStep64

end Verif.HashFn
