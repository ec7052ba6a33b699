/-!
# Types and their names
-/
namespace Verif.TypeDesc.Spec

/-- The kinds of basic types, by their numbers in the interface. -/
def signedInteger : Nat := 0
def unsignedInteger : Nat := 1
def float : Nat := 2
def charString : Nat := 4
def charArray : Nat := 6
def boolean : Nat := 10

/-- The types that have a name: kind, number of bits and name. -/
def named : List (Nat × Nat × String) :=
  [(signedInteger, 8, "int8"), (signedInteger, 16, "int16"), (signedInteger, 32, "int32"), (signedInteger, 64, "int64"),
   (unsignedInteger, 8, "uint8"), (unsignedInteger, 16, "uint16"), (unsignedInteger, 32, "uint32"), (unsignedInteger, 64, "uint64"),
   (float, 32, "float32"), (float, 64, "float64"), (charArray, 8, "char8"), (charString, 64, "string"), (boolean, 8, "bool"), (signedInteger, 0, "void")]

end Verif.TypeDesc.Spec
