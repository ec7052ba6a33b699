import Verif.Model.Validate
/-!
# Model of the structures that are declared in the configuration

`Source/Core/BareMetal/L4Configuration/IntrospectionStructure.cpp` (`Initialise`, one call for each object) and the constructor of `IntrospectionEntry`
(`L2Objects/IntrospectionEntry.cpp:62-106`).  The database of classes (C83) is a list of names, looked for without opening libraries.
-/
namespace Verif.StructDecl
open Verif.IntText (printDecimal)
open Verif.Validate (readInt Text)

def u32 (n : Nat) : Nat := n % 4294967296

/-- The value of `NumberOfElements`: absent, a text, or a list of one text or more (a matrix is not modelled). -/
inductive Elems
  | absent
  | one (t : Text)
  | list (first : Text) (rest : List Text)
deriving DecidableEq

/-- A child of the declaration: a leaf (as `Class`), or a node with its `Type` (`none`: absent, or not a text) and its `NumberOfElements`. -/
inductive Child
  | leaf
  | node (type : Option Text) (elems : Elems)
deriving DecidableEq

/-- `IntrospectionEntry`; `dims` is what its constructor makes of the modifiers, `none` when it reads after their end. -/
structure Entry where
  name : Text
  type : Text
  modifiers : Text
  size : Nat
  offset : Nat
  dims : Option (List Nat)
deriving DecidableEq

/-- `Introspection`: the members and the size. -/
structure Intro where
  entries : List Entry
  classSize : Nat
deriving DecidableEq

/-- What is registered under a name: a class of the program, with the size of its introspection if it has one, or a structure that was declared. -/
inductive Reg
  | native (size : Option Nat)
  | declared (i : Intro)
deriving DecidableEq

abbrev Registry := List (Text × Reg)

/-- `ClassRegistryDatabase::Find`. -/
def lookup (name : Text) : Registry → Option Reg
  | [] => none
  | x :: l => if x.1 = name then some x.2 else lookup name l

/-- `criLoader->Update`, `SetIntrospection` (lines 303-304) for the item that was found. -/
def replace (name : Text) (r : Reg) : Registry → Registry
  | [] => []
  | x :: l => if x.1 = name then (x.1, r) :: l else x :: replace name r l

/-- The characters of a word. -/
def ascii (s : String) : Text := s.toList.map fun c => UInt8.ofNat c.toNat

/-- `TypeDescriptor.cpp:55-71` with `TypeDescriptor.h:231-321`: `numberOfBits` of the basic types (64 bit pointers). -/
def basicBits : List (Text × Nat) :=
  [(ascii "string", 64), (ascii "int8", 8), (ascii "int16", 16), (ascii "int32", 32), (ascii "int64", 64), (ascii "uint8", 8), (ascii "uint16", 16),
   (ascii "uint32", 32), (ascii "uint64", 64), (ascii "bool", 8), (ascii "float32", 32), (ascii "float64", 64), (ascii "char8", 8), (ascii "void", 0)]

/-- `TypeDescriptor.cpp:116-128` `GetTypeDescriptorFromTypeName`. -/
def basicOf (type : Text) : List (Text × Nat) → Option Nat
  | [] => none
  | x :: l => if type = x.1 then some x.2 else basicOf type l

/-- `IntrospectionStructure.cpp:201-217`: the size of a member. -/
def memberSize (reg : Registry) (type : Text) : Nat :=
  match basicOf type basicBits with
  | some bits => bits / 8
  | none =>
    match lookup type reg with
    | some (.native (some n)) => n
    | some (.native none) => 0
    | some (.declared i) => i.classSize
    | none => 0

/-- `data.Read("NumberOfElements", uint32)`: text to integer. -/
def readNat (t : Text) : Option Nat := (readInt ⟨32, false⟩ t).map Int.toNat

/-- `IntrospectionStructure.cpp:138-175`: the dimensions; `none` is a failure.  Lines 163-167: one dimension of one element is none. -/
def dimensions : Elems → Option (List Nat)
  | .absent => some []
  | .one t => (readNat t).map fun n => if n = 1 then [] else [n]
  | .list t [] => (readNat t).map fun n => if n = 1 then [] else [n]
  | .list t (u :: r) => (t :: u :: r).mapM readNat

/-- `IntrospectionStructure.cpp:178-181`: `[%d]` for each dimension. -/
def modifiersOf : List Nat → Text
  | [] => []
  | n :: l => 91 :: (printDecimal ⟨32, false⟩ n 0 false false false ++ 93 :: modifiersOf l)

/-- `IntrospectionStructure.cpp:224-232`. -/
def totalElements (dims : List Nat) : Nat :=
  let n := dims.foldl (fun t n => if n > 0 then u32 (t * n) else t) 1
  if n = 0 then 1 else n

/-- `IntrospectionEntry.cpp:82-101`: the dimensions in the modifiers; `n` are those before, `cur` the number that is being read. -/
def scan (n : Nat) : Option Nat → Text → Option (List Nat)
  | none, [] => some []
  | some _, [] => none
  | none, c :: t => if n < 3 then (if c = 91 then scan n (some 0) t else scan n none t) else some []
  | some a, c :: t =>
    if c = 93 then (scan (n + 1) none t).map (a :: ·)
    else scan n (some (u32 (u32 (a * 10) + (if 48 ≤ c.toNat ∧ c.toNat ≤ 57 then c.toNat - 48 else 0)))) t

/-- `IntrospectionStructure.cpp:129-248`: the loop over the children. -/
def members (reg : Registry) : List (Text × Child) → List Entry → Nat → Option (List Entry × Nat)
  | [], entries, total => some (entries, total)
  | (_, .leaf) :: l, entries, total => members reg l entries total
  | (name, .node type elems) :: l, entries, total =>
    match type, dimensions elems with
    | some t, some dims =>
      members reg l (entries ++ [⟨name, t, modifiersOf dims, memberSize reg t, total, scan 0 none (modifiersOf dims)⟩])
        (u32 (total + u32 (memberSize reg t * totalElements dims)))
    | _, _ => none

/-- `IntrospectionStructure.cpp:123-316` `Initialise` of an object of that name: the answer and the database. -/
def declare (name : Text) (children : List (Text × Child)) (reg : Registry) : Bool × Registry :=
  match members reg children [] 0 with
  | none => (false, reg)
  | some (entries, total) =>
    if total > 0 then
      match lookup name reg with
      | none => (true, reg ++ [(name, .declared ⟨entries, total⟩)])
      | some (.declared _) => (true, replace name (.declared ⟨entries, total⟩) reg)
      | some (.native _) => (false, reg)
    else (false, reg)

end Verif.StructDecl
