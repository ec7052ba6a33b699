/-!
# Model of `BareMetal/L0Types/BitSet.cpp`

A bit set is its array of 32-bit words (`nElements` is the length).  Indices and sizes are `uint32`: additions that can
wrap do.  `none` is an access outside of the array.
-/
namespace Verif.BitSet

abbrev Word := BitVec 32
abbrev Bits := List Word

/-- `uint32` wrap. -/
def u32 (n : Nat) : Nat := n % 2 ^ 32

/-- `BitSet.cpp:53-57` default constructor. -/
def empty : Bits := [0]
/-- `BitSet.cpp:59-63,155-163` construction from and assignment of a `uint32`. -/
def ofU32 (v : BitVec 32) : Bits := [v]
/-- `BitSet.cpp:65-70,165-174` construction from and assignment of a `uint64`. -/
def ofU64 (v : BitVec 64) : Bits := [v.setWidth 32, (v >>> 32).setWidth 32]

/-- `BitSet.cpp:92-104` `Resize`. -/
def resize (a : Bits) (size : Nat) : Bits :=
  a.take (min size a.length) ++ List.replicate (size - min size a.length) 0

/-- `BitSet.cpp:110-119` `Bit`. -/
def bit (a : Bits) (index : Nat) : Bool :=
  let byteIndex := index / 32
  match a[byteIndex]? with
  | some w => (w &&& ((1 : Word) <<< (index - 32 * byteIndex))) != 0
  | none => false

/-- `array[k] = v` inside the bounds. -/
def put (a : Bits) (k : Nat) (f : Word → Word) : Bits := a.modify k f

/-- `BitSet.cpp:121-138` `Set`. -/
def set (a : Bits) (index : Nat) (value : Bool) : Bits :=
  let byteIndex := index / 32
  let a := if byteIndex ≥ a.length then resize a (u32 (byteIndex + 1)) else a
  let bitmask := (1 : Word) <<< (index - 32 * byteIndex)
  if value then put a byteIndex (· ||| bitmask) else put a byteIndex (· &&& ~~~bitmask)

/-- `BitSet.cpp:176-182` conversion to `uint32`. -/
def toU32 (a : Bits) : BitVec 32 := if a.length > 0 then a.getD 0 0 else 0

/-- `BitSet.cpp:184-193` conversion to `uint64`. -/
def toU64 (a : Bits) : BitVec 64 :=
  let v : BitVec 64 := if a.length > 0 then (a.getD 0 0).setWidth 64 else 0
  if a.length = 2 then v + ((a.getD 1 0).setWidth 64) <<< 32 else v

/-- `BitSet.cpp:41-47` `Longer`. -/
def longer (a b : Bits) : Bits := if b.length > a.length then b else a

/-- `BitSet.cpp:196-210,380-394` `operator&`, `operator&=`. -/
def and (a b : Bits) : Bits :=
  (List.range (min a.length b.length)).map (fun i => a.getD i 0 &&& b.getD i 0) ++
  List.replicate (max a.length b.length - min a.length b.length) 0

/-- `BitSet.cpp:213-226,365-379` `operator|`, `operator|=`. -/
def or (a b : Bits) : Bits :=
  (List.range (min a.length b.length)).map (fun i => a.getD i 0 ||| b.getD i 0) ++
  (longer a b).drop (min a.length b.length)

/-- `BitSet.cpp:229-242,396-410` `operator^`, `operator^=`. -/
def xor (a b : Bits) : Bits :=
  (List.range (min a.length b.length)).map (fun i => a.getD i 0 ^^^ b.getD i 0) ++
  (longer a b).drop (min a.length b.length)

/-- `BitSet.cpp:245-253` `operator~`. -/
def not (a : Bits) : Bits := a.map (~~~ ·)

/-- One iteration of the loops of the shifts (`BitSet.cpp:264-270,285-291`): set bit `k` of the new array. -/
def raise (n : Bits) (k : Nat) : Bits :=
  let byteIndex := k / 32
  if byteIndex < n.length then put n byteIndex (· ||| ((1 : Word) <<< (k - byteIndex * 32))) else n

/-- `BitSet.cpp:256-275` `operator<<`. -/
def shl (a : Bits) (rhm : Nat) : Bits :=
  let newSize := u32 (a.length + rhm / 32 + 1)
  (List.range (u32 (32 * a.length))).foldl
    (fun n i => if bit a i then raise n (u32 (i + rhm)) else n) (List.replicate newSize 0)

/-- `BitSet.cpp:278-296` `operator>>`. -/
def shr (a : Bits) (rhm : Nat) : Bits :=
  ((List.range (u32 (32 * a.length))).drop rhm).foldl
    (fun n i => if bit a i then raise n (i - rhm) else n) (List.replicate a.length 0)

/-- `BitSet.cpp:298-315` `operator==`. -/
def eq (a b : Bits) : Bool :=
  let common := min a.length b.length
  let maxLength := max a.length b.length
  let result := (List.range common).all (fun i => b.getD i 0 == a.getD i 0)
  if result && decide (common < maxLength) then
    ((List.range maxLength).drop common).all (fun i => (longer a b).getD i 0 == 0)
  else result

/-- `BitSet.cpp:317-334` `operator==(uint32)`. -/
def eqU32 (a : Bits) (v : BitVec 32) : Bool :=
  match a with
  | [] => v == 0
  | w :: rest => if w != v then false else rest.all (· == 0)

/-- `BitSet.cpp:336-351` `operator==(uint64)`; the conditions of line 341 are evaluated left to right. -/
def eqU64 (a : Bits) (v : BitVec 64) : Option Bool :=
  if a.length = 0 then some (v == 0)
  else if a.length = 1 ∧ v >>> 32 ≠ 0 then some false
  else (a[0]?).bind fun w0 =>
    if w0.setWidth 64 ≠ v &&& 0xffffffff then some false
    else (a[1]?).bind fun w1 =>
      if w1.setWidth 64 ≠ v >>> 32 then some false
      else some ((a.drop 2).all (· == 0))

end Verif.BitSet
