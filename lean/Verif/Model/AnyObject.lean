/-!
# Model of the values kept by a configuration database

`BareMetal/L4Configuration/AnyObject.cpp`: `Serialise`, `CleanUp`, and the static functions `SerializeScalar`, `SerializeVector`,
`SerializeStaticMatrix`, `SerializeHeapMatrix`, `SerializeStaticTensor`.

Simplifications.  The memory is a map from the number of a block to its cells; the number of a block is its address, and `0` is NULL.
A cell is a byte, an address or `junk` (never written); an address takes one cell instead of eight bytes, so that the sizes in bytes of
tables of addresses, reduced modulo 2^32, are numbers of cells modulo 2^29.  Addresses inside a block, and failures of `malloc`, are not
modelled.  A `StreamString` is the cell with the address of its buffer.  Reading or writing outside a block, using an address that is
not that of a live block, and freeing such an address, are undefined: the result is `none`.  Character arrays that are not static and
have fewer than two dimensions are not modelled; the others are numbers of one byte.
-/
namespace Verif.AnyObject

inductive Word where
  | byte (b : Nat)
  | ptr (p : Nat)
  | junk
deriving DecidableEq, Repr

structure Mem where
  next : Nat
  cells : Nat → Option (List Word)

/-- What the descriptor says: numbers of `k` bytes, `BT_CCString`, `SString`, `Pointer`. -/
inductive Kind where
  | num (k : Nat)
  | cstr
  | sstr
  | pointer
deriving DecidableEq, Repr

/-- `AnyType.h:838-866`: the descriptor, the dimensions, whether it is static, the address of the data. -/
structure Any where
  kind : Kind
  dims : Nat
  cols : Nat
  rows : Nat
  pages : Nat
  isStatic : Bool
  data : Nat
deriving DecidableEq, Repr

/-- `AnyType.h:1429-1438` `Init`. -/
def void : Any := { kind := .num 0, dims := 0, cols := 1, rows := 1, pages := 1, isStatic := true, data := 0 }

/-- A block gets new cells. -/
def put (m : Mem) (p : Nat) (b : List Word) : Mem := { m with cells := fun q => if q = p then some b else m.cells q }

/-- `StandardHeap_Generic.cpp:60-90` `Malloc`: nothing for a size of zero. -/
def malloc (m : Mem) (n : Nat) : Nat × Mem :=
  if n = 0 then (0, m)
  else (m.next, { next := m.next + 1, cells := fun q => if q = m.next then some (List.replicate n .junk) else m.cells q })

/-- `HeapManager.cpp:346-363` and `StandardHeap_Generic.cpp:93-100` `Free`: for NULL it only reports. -/
def free (m : Mem) (w : Word) : Option Mem :=
  match w with
  | .ptr p =>
    if p = 0 then some m
    else if (m.cells p).isSome then some { m with cells := fun q => if q = p then none else m.cells q }
    else none
  | _ => none

/-- The cell `i` of a block. -/
def load (m : Mem) (p i : Nat) : Option Word := (m.cells p).bind (·[i]?)

/-- The cell `i` of a block, used as an address. -/
def loadPtr (m : Mem) (p i : Nat) : Option Nat :=
  match load m p i with
  | some (.ptr q) => some q
  | _ => none

/-- Write the cell `i` of a block. -/
def store (m : Mem) (p i : Nat) (w : Word) : Option Mem :=
  match m.cells p with
  | some b => if i < b.length then some (put m p (b.set i w)) else none
  | none => none

/-- `MemoryOperationsHelper_CLIB_Generic.cpp:52-70` `Copy`. -/
def copy (m : Mem) (dst src n : Nat) : Option (Bool × Mem) :=
  if src ≠ 0 ∧ dst ≠ 0 then
    match m.cells src, m.cells dst with
    | some s, some d => if n ≤ s.length ∧ n ≤ d.length then some (true, put m dst (s.take n ++ d.drop n)) else none
    | _, _ => none
  else some (false, m)

/-- `strlen`: the number of cells before the first zero. -/
def zeroAt : List Word → Option Nat
  | [] => none
  | w :: ws => if w = .byte 0 then some 0 else (zeroAt ws).map (· + 1)

/-- `StringHelper_CLIB_Generic.cpp:202-211` `Length`. -/
def strLength (m : Mem) (p : Nat) : Option Nat := if p = 0 then some 0 else (m.cells p).bind zeroAt

/-- One string: `AnyObject.cpp:132-143` (also 188-198, 270-286): take a block for it, keep its address in cell `i` of the
table `dst`, copy it (`StringHelper::Copy` in the matrices, `MemoryOperationsHelper::Copy` in the vectors: both refuse NULL). -/
def copyString (m : Mem) (dst i token : Nat) : Option (Bool × Mem) :=
  match strLength m token with
  | none => none
  | some len =>
    match store (malloc m (len + 1)).2 dst i (.ptr (malloc m (len + 1)).1) with
    | none => none
    | some m2 => copy m2 (malloc m (len + 1)).1 token (len + 1)

/-- The strings of a table one after the other, from cell `i`; it stops at the first failure.  First argument: how many remain.  In a
static matrix (`AnyObject.cpp:130-145`) the two loops visit the cells `r * numberOfColumns + c` in this order. -/
def copyStrings (src dst : Nat) : Nat → Nat → Mem → Option (Bool × Mem)
  | 0, _, m => some (true, m)
  | n + 1, i, m =>
    match loadPtr m src i with
    | none => none
    | some token =>
      match copyString m dst i token with
      | none => none
      | some (ok, m') => if ok then copyStrings src dst n (i + 1) m' else some (false, m')

/-- The size, in cells, of the block for `n` elements: a product of `uint32`. -/
def size (k : Kind) (n : Nat) : Nat :=
  match k with
  | .num b => (b * n) % 4294967296
  | _ => n % 536870912

/-- `SString` or `BT_CCString`. -/
def isText : Kind → Bool
  | .cstr | .sstr => true
  | _ => false

/-- One block copied as it is: `AnyObject.cpp:338-342`, 289-291, 147-149, 80-82. -/
def copyAll (m : Mem) (t : Any) (n : Nat) : Option (Bool × Any × Mem) :=
  match copy (malloc m n).2 (malloc m n).1 t.data n with
  | none => none
  | some (ok, m') => some (ok, { t with data := (malloc m n).1 }, m')

/-- A table of strings: `AnyObject.cpp:115-145`, 254-287. -/
def copyTable (m : Mem) (t : Any) (n : Nat) : Option (Bool × Any × Mem) :=
  match copyStrings t.data (malloc m (size t.kind n)).1 n 0 (malloc m (size t.kind n)).2 with
  | none => none
  | some (ok, m') => some (ok, { t with data := (malloc m (size t.kind n)).1 }, m')

/-- `AnyObject.cpp:323-334`: the block for a string that is a scalar. -/
def copyText (m : Mem) (t : Any) (token : Nat) : Option (Bool × Any × Mem) :=
  match strLength m token with
  | none => none
  | some len => copyAll m { t with data := token } (len + 1)

/-- `AnyObject.cpp:306-348` `SerializeScalar`. -/
def scalar (m : Mem) (t : Any) : Option (Bool × Any × Mem) :=
  match t.kind with
  | .sstr => (loadPtr m t.data 0).bind fun token => copyText m t token
  | .cstr => copyText m t t.data
  | .pointer => some (true, t, m)
  | .num k => copyAll m t k

/-- `AnyObject.cpp:238-296` `SerializeVector`. -/
def vector (m : Mem) (t : Any) : Option (Bool × Any × Mem) :=
  if isText t.kind then copyTable m t t.cols else copyAll m t (size t.kind t.cols)

/-- `AnyObject.cpp:102-152` `SerializeStaticMatrix`. -/
def staticMatrix (m : Mem) (t : Any) : Option (Bool × Any × Mem) :=
  if isText t.kind then copyTable m t (t.rows * t.cols) else copyAll m t (size t.kind (t.rows * t.cols))

/-- `AnyObject.cpp:184-204`: one row; `d` is the table of the rows of the copy.  (The address of a row of the source is read also when
there are no columns.) -/
def copyRow (t : Any) (d r : Nat) (m : Mem) : Option (Bool × Mem) :=
  match store (malloc m (size t.kind t.cols)).2 d r (.ptr (malloc m (size t.kind t.cols)).1) with
  | none => none
  | some m2 =>
    match loadPtr m2 t.data r with
    | none => none
    | some row =>
      if isText t.kind then copyStrings row (malloc m (size t.kind t.cols)).1 t.cols 0 m2
      else copy m2 (malloc m (size t.kind t.cols)).1 row (size t.kind t.cols)

/-- `AnyObject.cpp:183-205`: the rows from `r`. -/
def copyRows (t : Any) (d : Nat) : Nat → Nat → Mem → Option (Bool × Mem)
  | 0, _, m => some (true, m)
  | n + 1, r, m =>
    match copyRow t d r m with
    | none => none
    | some (ok, m') => if ok then copyRows t d n (r + 1) m' else some (false, m')

/-- `AnyObject.cpp:155-207` `SerializeHeapMatrix`. -/
def heapMatrix (m : Mem) (t : Any) : Option (Bool × Any × Mem) :=
  match copyRows t (malloc m (size .pointer t.rows)).1 t.rows 0 (malloc m (size .pointer t.rows)).2 with
  | none => none
  | some (ok, m') => some (ok, { t with data := (malloc m (size .pointer t.rows)).1 }, m')

/-- `AnyObject.cpp:48-86` `SerializeStaticTensor`: the block is taken before the strings are refused. -/
def staticTensor (m : Mem) (t : Any) : Option (Bool × Any × Mem) :=
  let n := size t.kind (t.rows * t.cols * t.pages)
  if isText t.kind then some (false, { t with data := (malloc m n).1 }, (malloc m n).2) else copyAll m t n

/-- `AnyObject.cpp:370-388`: by the number of dimensions; `a` is the type that the object has when it is not replaced. -/
def dispatch (m : Mem) (a t : Any) : Option (Bool × Any × Mem) :=
  match t.dims with
  | 0 => scalar m t
  | 1 => vector m t
  | 2 => if t.isStatic then staticMatrix m t else heapMatrix m t
  | 3 => if t.isStatic then staticTensor m t else some (false, a, m)
  | _ => some (false, a, m)

/-- `AnyObject.cpp:390-400`: strings are kept as `BT_CCString`. -/
def retype (t a : Any) : Any :=
  if t.kind = .sstr then
    { kind := .cstr, dims := t.dims, cols := t.cols, rows := t.rows, pages := t.pages, isStatic := t.isStatic, data := a.data }
  else { a with isStatic := t.isStatic }

/-- `AnyObject.cpp:418-426`, 433-444: the strings of a table are freed, from cell `i`.  First argument: how many remain. -/
def freeStrings (d : Nat) : Nat → Nat → Mem → Option Mem
  | 0, _, m => some m
  | n + 1, i, m =>
    match load m d i with
    | none => none
    | some w =>
      match free m w with
      | none => none
      | some m' => freeStrings d n (i + 1) m'

/-- `AnyObject.cpp:434-465`: one row of a matrix on the heap. -/
def freeRow (a : Any) (r : Nat) (m : Mem) : Option Mem :=
  match (if isText a.kind then
      match loadPtr m a.data r with
      | none => none
      | some row => if row ≠ 0 then freeStrings row a.cols 0 m else some m
    else some m) with
  | none => none
  | some m1 =>
    match load m1 a.data r with
    | none => none
    | some w => free m1 w

/-- `AnyObject.cpp:433-466`: the rows from `r`. -/
def freeRows (a : Any) : Nat → Nat → Mem → Option Mem
  | 0, _, m => some m
  | n + 1, r, m =>
    match freeRow a r m with
    | none => none
    | some m' => freeRows a n (r + 1) m'

/-- `AnyObject.cpp:416-467`: what the table at the address of the data points to. -/
def freeInside (m : Mem) (a : Any) : Option Mem :=
  if a.dims = 1 then (if isText a.kind then freeStrings a.data a.cols 0 m else some m)
  else if a.dims = 2 then
    if a.isStatic then (if isText a.kind then freeStrings a.data (a.rows * a.cols) 0 m else some m)
    else freeRows a a.rows 0 m
  else some m

/-- `AnyObject.cpp:406-475` `CleanUp`. -/
def cleanUp (m : Mem) (a : Any) : Option (Any × Mem) :=
  if a.data = 0 then some (a, m)
  else
    match freeInside m a with
    | none => none
    | some m1 =>
      if a.kind = .pointer then some (void, m1)
      else
        match free m1 (.ptr a.data) with
        | none => none
        | some m2 => some (void, m2)

/-- `AnyObject.cpp:368-404` `Serialise`, on an object with type `a`. -/
def serialise (m : Mem) (a t : Any) : Option (Bool × Any × Mem) :=
  match cleanUp m a with
  | none => none
  | some (a0, m0) =>
    match dispatch m0 a0 t with
    | none => none
    | some (ok, a1, m1) => some (ok, retype t a1, m1)

/-- A sequence of values kept one after the other by the same object. -/
def serialiseAll : List Any → Mem → Any → Option (Any × Mem)
  | [], m, a => some (a, m)
  | t :: ts, m, a =>
    match serialise m a t with
    | none => none
    | some (_, a', m') => serialiseAll ts m' a'

end Verif.AnyObject
