/-!
# Model of the elements of a value of any type

`BareMetal/L2Objects/AnyType.cpp`: `operator[]`; `AnyType.h`: `GetBitSize`, `GetByteSize`, `GetDataSize`.  Addresses are numbers, 0 is `NULL`;
what the memory holds at an address, read as an address, is an argument.
-/
namespace Verif.AnyIndex

/-- `TypeDescriptor`: what of it is used.  A structured type: not registered (`none`), registered without introspection (`some none`), or with the
size of its introspection. -/
inductive Kind where
  | void
  | plain (bits : Nat)
  | string
  | pointer
  | structured (size : Option (Option Nat))
deriving DecidableEq, Repr

/-- The fields of `AnyType` (`AnyType.h:834-867`). -/
structure Val where
  kind : Kind
  bitAddress : Nat
  ptr : Nat
  dims : Nat
  n0 : Nat
  n1 : Nat
  n2 : Nat
  static : Bool
deriving DecidableEq, Repr

/-- `AnyType.h:1429-1438` `Init`, and the void value. -/
def void : Val := ⟨.void, 0, 0, 0, 1, 1, 1, true⟩

/-- `AnyType.h:909-916`: a value with a descriptor, a bit and an address. -/
def scalar (k : Kind) (bit ptr : Nat) : Val := ⟨k, bit, ptr, 0, 1, 1, 1, true⟩

/-- `numberOfBits` of the descriptor (`TypeDescriptor.h:251-316`). -/
def bits : Kind → Nat
  | .void => 0
  | .plain b => b
  | .string => 64
  | .pointer => 64
  | .structured _ => 0

/-- `AnyType.h:1440-1463` `GetByteSize` of types that are not structured. -/
def byteSize (v : Val) : Nat := (bits v.kind + v.bitAddress + 7) / 8

/-- `AnyType.cpp:81-93`: the size of an element; `none`: `NULL` is dereferenced. -/
def elementSize (v : Val) : Option Nat :=
  match v.kind with
  | .structured none => some 0
  | .structured (some s) => s
  | _ => some (byteSize v)

/-- `AnyType.cpp:77-133` `operator[]`.  `load`: the address kept at an address; `none`: `NULL` is dereferenced. -/
def elem (load : Nat → Nat) (v : Val) (position : Nat) : Option Val :=
  if v.ptr = 0 then some void
  else
    match elementSize v with
    | none => none
    | some size =>
      some (
        if size = 0 then void
        else if v.dims = 2 then
          if position < v.n1 then
            { scalar v.kind v.bitAddress
                (if v.static then v.ptr + position * size % 2 ^ 32 * v.n0 % 2 ^ 32 else load (v.ptr + 8 * position)) with
              dims := 1, n0 := v.n1 }
          else void
        else if v.dims = 1 then
          if position < v.n0 then
            scalar v.kind v.bitAddress
              (if v.kind = .string ∨ v.kind = .pointer then load (v.ptr + 8 * position) else v.ptr + position * size % 2 ^ 32)
          else void
        else void)

/-- `AnyType.h:1465-1479` `GetDataSize`, of types that are not structured. -/
def dataSize (v : Val) : Nat :=
  let l1 := if 0 < v.dims then v.n0 % 2 ^ 32 else 1
  let l2 := if 1 < v.dims then l1 * v.n1 % 2 ^ 32 else l1
  let l3 := if 2 < v.dims then l2 * v.n2 % 2 ^ 32 else l2
  l3 * byteSize v % 2 ^ 32

end Verif.AnyIndex
