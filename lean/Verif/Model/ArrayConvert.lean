/-!
# Model of `TypeConvert` for vectors and matrices

`Source/Core/BareMetal/L4Configuration/TypeConversion.cpp:1069-1521`.  The conversion of one element (`ScalarBasicTypeConvert`, that other models
give: C15, C16, C65-C68) is a parameter: it reads the source and gives whether it succeeded and the new bytes of the destination.
-/
namespace Verif.ArrayConvert

/-- The memory. -/
abbrev Mem := Nat → UInt8

/-- So many bytes at an address. -/
def bytes (m : Mem) (a n : Nat) : List UInt8 := (List.range n).map fun i => m (a + i)

/-- A write of bytes. -/
def blit (m : Mem) (a : Nat) (bs : List UInt8) : Mem := fun x => if a ≤ x ∧ x < a + bs.length then bs.getD (x - a) 0 else m x

/-- `AnyType`: whether it is constant, whether its elements are characters, the dimensions, the numbers of elements, the size of an element, whether it
is one block (`IsStaticDeclared`) and the address.  `rows` are the pointers to the rows when it is not one block; they are not in the memory that is
written (a simplification). -/
structure Any where
  constant : Bool
  char : Bool
  dims : Nat
  n0 : Nat
  n1 : Nat
  n2 : Nat
  size : Nat
  static : Bool
  addr : Nat
  rows : Nat → Nat

/-- `GetNumberOfElements(i)`. -/
def Any.n (a : Any) (i : Nat) : Nat := if i = 0 then a.n0 else if i = 1 then a.n1 else if i = 2 then a.n2 else 0

/-- What is known of the elements: how one is read at an address of the source, and how it is converted: the success and the new bytes, from the ones
that were there. -/
structure Elem (S : Type) where
  read : Mem → Nat → S
  conv : S → List UInt8 → Bool × List UInt8

/-- The arithmetic of `uint32`. -/
def u32 (n : Nat) : Nat := n % 2 ^ 32

/-- `TypeConversion.cpp:1094-1103`, `1125-1137` (and `1083-1092`, `1105-1123`): the address of an element of a vector.  The elements of a vector of
texts are `n0` characters apart, or are pointed to. -/
def Any.element (a : Any) (idx : Nat) : Nat :=
  if a.char then
    if a.static then a.addr + u32 (u32 (idx * a.size) * a.n0) else a.rows idx
  else a.addr + u32 (idx * a.size)

/-- The bytes that an element takes: a text has `n0` characters. -/
def Any.width (a : Any) : Nat := if a.char then a.size * a.n0 else a.size

/-- `TypeConversion.cpp:1141-1143` for an element. -/
def convertOne (e : Elem S) (d s w : Nat) (st : Bool × Mem) : Bool × Mem :=
  let r := e.conv (e.read st.2 s) (bytes st.2 d w)
  (st.1 && r.1, blit st.2 d r.2)

/-- `TypeConversion.cpp:1069-1148` `VectorBasicTypeConvert`. -/
def convertVector (e : Elem S) (dst src : Any) (m : Mem) : Bool × Mem :=
  let n := if src.char then src.n1 else src.n0
  (List.range n).foldl (fun st idx => convertOne e (dst.element idx) (src.element idx) dst.width st) (true, m)

/-- `TypeConversion.cpp:1188-1199`, `1201-1212` and the same of `1232-1386`: the row of a matrix, for elements that are not characters (matrices of
texts are not modelled). -/
def Any.row (a : Any) (cols r : Nat) : Any :=
  { a with dims := 1, n0 := cols, addr := if a.static then a.addr + u32 (u32 (r * cols) * a.size) else a.rows r }

/-- `TypeConversion.cpp:1161-1424` `MatrixBasicTypeConvert`, the four cases. -/
def convertMatrix (e : Elem S) (dst src : Any) (m : Mem) : Bool × Mem :=
  (List.range dst.n1).foldl (fun st r =>
    let v := convertVector e (dst.row dst.n0 r) (src.row dst.n0 r) st.2
    (st.1 && v.1, v.2)) (true, m)

/-- `TypeConversion.cpp:1442-1456`: the dimensions, those of an array of characters counted as one less. -/
def Any.shape (a : Any) : Nat := if a.char then (if a.dims > 0 then a.dims - 1 else a.dims) else a.dims

/-- `TypeConversion.cpp:1457-1502`: whether the dimensions agree. -/
def agree (dst src : Any) : Bool :=
  decide (dst.shape = src.shape) &&
  (List.range dst.shape).all fun i =>
    if dst.char then
      decide ((if dst.shape = 1 then dst.n (i + 1) else dst.n i) = (if src.char && decide (dst.shape = 1) then src.n (i + 1) else src.n i))
    else if src.char then
      decide (dst.n i = if src.shape = 1 then src.n (i + 1) else src.n i)
    else decide (dst.n i = src.n i)

/-- `TypeConversion.cpp:1433-1520` `TypeConvert`. -/
def typeConvert (e : Elem S) (dst src : Any) (m : Mem) : Bool × Mem :=
  if dst.constant then (false, m)
  else if agree dst src then
    if src.shape = 0 then convertOne e dst.addr src.addr dst.width (true, m)
    else if src.shape = 1 then convertVector e dst src m
    else if src.shape = 2 then convertMatrix e dst src m
    else (true, m)
  else (false, m)

end Verif.ArrayConvert
