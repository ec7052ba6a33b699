/-!
# Model of the descriptors of types

`BareMetal/L1Portability/TypeDescriptor.h` and `.cpp`: 16 bits that are a union of fields.  The texts are lists of characters; a text that is not given is
not modelled.  Sizes are those of a machine with addresses of 64 bits.
-/
namespace Verif.TypeDesc

/-- `BitRange.h`, `BitBoolean.h` (C10): a descriptor is the number of its 16 bits; writing of a field of `width` bits at the bit `offset`; a value too large becomes the largest. -/
def set (width offset v : Nat) (d : Nat) : Nat :=
  d - (d / 2 ^ offset % 2 ^ width) * 2 ^ offset + min v (2 ^ width - 1) * 2 ^ offset

/-- Reading of a field. -/
def get (width offset : Nat) (d : Nat) : Nat := d / 2 ^ offset % 2 ^ width

/-- `TypeDescriptor.h:76`. -/
def isStructured (d : Nat) : Bool := get 1 0 d == 1
/-- `TypeDescriptor.h:81`. -/
def isConstant (d : Nat) : Bool := get 1 1 d == 1
/-- `TypeDescriptor.h:86`. -/
def type (d : Nat) : Nat := get 4 2 d
/-- `TypeDescriptor.h:91`. -/
def numberOfBits (d : Nat) : Nat := get 10 6 d
/-- `TypeDescriptor.h:96`. -/
def idCode (d : Nat) : Nat := get 14 2 d

/-- `TypeDescriptor.cpp:83-90`; `memory`: what the memory held before. -/
def basic (memory : Nat) (constant : Bool) (t bits : Nat) : Nat :=
  set 10 6 bits (set 4 2 t (set 1 1 constant.toNat (set 1 0 0 memory)))

/-- `TypeDescriptor.cpp:92-97`; the identifier is a `uint14` (`FractionalInteger.h:731`). -/
def structured (memory : Nat) (constant : Bool) (id : Nat) : Nat :=
  set 14 2 (min id 16383) (set 1 1 constant.toNat (set 1 0 1 memory))

/-- `TypeDescriptor.cpp:99-102` `operator==`. -/
def equal (a b : Nat) : Bool := set 1 1 1 a == set 1 1 1 b

/-- `TypeDescriptor.cpp:109-121` `IsNumericType`. -/
def isNumeric (d : Nat) : Bool :=
  !isStructured d && decide (numberOfBits d > 0) && (type d == 2 || type d == 0 || type d == 1) && !(type d == 10)

/-- `TypeDescriptor.h:321`. -/
def invalid : Nat := basic 0 false 15 0

/-- `TypeDescriptor.cpp:55-69`, without the last entry, and `TypeDescriptor.h:231-316`. -/
def table : List (Nat × List Char) :=
  [(basic 0 false 4 64, "string".toList), (basic 0 false 0 8, "int8".toList), (basic 0 false 0 16, "int16".toList),
   (basic 0 false 0 32, "int32".toList), (basic 0 false 0 64, "int64".toList), (basic 0 false 1 8, "uint8".toList),
   (basic 0 false 1 16, "uint16".toList), (basic 0 false 1 32, "uint32".toList), (basic 0 false 1 64, "uint64".toList),
   (basic 0 false 10 8, "bool".toList), (basic 0 false 2 32, "float32".toList), (basic 0 false 2 64, "float64".toList),
   (basic 0 false 6 8, "char8".toList), (basic 0 false 0 0, "void".toList)]

/-- `TypeDescriptor.cpp:123-135` `GetTypeDescriptorFromTypeName`. -/
def fromName (name : List Char) : List (Nat × List Char) → Nat
  | [] => invalid
  | (d, n) :: rest => if name = n then d else fromName name rest

/-- `TypeDescriptor.cpp:138-150` `GetTypeNameFromTypeDescriptor`; the loop also ends at an entry that is the invalid type. -/
def toName (desc : Nat) : List (Nat × List Char) → Option (List Char)
  | [] => none
  | (d, n) :: rest => if equal d invalid then some n else if equal d desc then some n else toName desc rest

end Verif.TypeDesc
