import Verif.Model.StructDecl
import Verif.Spec.Validate
/-!
# Specification of the structures that are declared in the configuration (C84)

Only the types of the declarations and of what is registered are taken from the model.
-/
namespace Verif.Spec.StructDecl
open Verif.StructDecl (Elems Child Entry Intro Reg Registry)
open Verif.Validate (Text)
open Verif.Spec.Validate (Decimal)

/-- A member that the user wants: so many elements in each dimension; none for a single one. -/
structure Member where
  name : Text
  type : Text
  dims : List Nat

/-- The number of elements. -/
def Member.count (m : Member) : Nat := m.dims.foldr (· * ·) 1

/-- The numbers of elements are written: nothing or `1` for a single one, a text or a list of one for one dimension, a list for more. -/
def WrittenElems : List Nat → Elems → Prop
  | [], e => e = .absent ∨ ∃ t, Decimal 1 t ∧ (e = .one t ∨ e = .list t [])
  | [n], e => 2 ≤ n ∧ n < 2 ^ 32 ∧ ∃ t, Decimal n t ∧ (e = .one t ∨ e = .list t [])
  | n :: m :: l, e => (∀ k, k ∈ n :: m :: l → 1 ≤ k ∧ k < 2 ^ 32) ∧
      ∃ t r, e = .list t r ∧ (t :: r).length = (n :: m :: l).length ∧
        ∀ (i : Nat) k u, (n :: m :: l)[i]? = some k → (t :: r)[i]? = some u → Decimal k u

/-- The declaration of the members, in order, with leaves anywhere between them. -/
inductive Declares : List Member → List (Text × Child) → Prop
  | nil : Declares [] []
  | leaf (name : Text) {ms l} : Declares ms l → Declares ms ((name, .leaf) :: l)
  | member (m : Member) (e : Elems) {ms l} : WrittenElems m.dims e → Declares ms l → Declares (m :: ms) ((m.name, .node (some m.type) e) :: l)

/-- The characters of a word. -/
def word (s : String) : Text := s.toList.map fun c => UInt8.ofNat c.toNat

/-- The sizes of the basic types, in bytes; a `string` is a pointer. -/
def basic : List (Text × Nat) :=
  [(word "int8", 1), (word "uint8", 1), (word "int16", 2), (word "uint16", 2), (word "int32", 4), (word "uint32", 4), (word "int64", 8), (word "uint64", 8),
   (word "float32", 4), (word "float64", 8), (word "bool", 1), (word "char8", 1), (word "string", 8)]

/-- What is registered first under the name. -/
def Registered (reg : Registry) (name : Text) (r : Reg) : Prop :=
  ∃ n : Nat, reg[n]? = some (name, r) ∧ ∀ (m : Nat) x, m < n → reg[m]? = some x → x.1 ≠ name

/-- A type has a size: a basic one, or one that is registered with its members. -/
def HasSize (reg : Registry) (type : Text) (n : Nat) : Prop :=
  (type, n) ∈ basic ∨
  ((∀ k, (type, k) ∉ basic) ∧ type ≠ word "void" ∧ (Registered reg type (.native (some n)) ∨ ∃ i, Registered reg type (.declared i) ∧ i.classSize = n))

/-- The members have these sizes of one element. -/
def Sizes (reg : Registry) (ms : List Member) (sizes : List Nat) : Prop :=
  sizes.length = ms.length ∧ ∀ (i : Nat) m n, ms[i]? = some m → sizes[i]? = some n → HasSize reg m.type n

/-- The bytes of the members: the sizes of the elements times their numbers. -/
def bytes : List Member → List Nat → List Nat
  | m :: ms, n :: ns => n * m.count :: bytes ms ns
  | _, _ => []

/-- The sum. -/
def sum : List Nat → Nat
  | [] => 0
  | n :: l => n + sum l

/-- The members of the introspection are those of the declaration, one after the other without holes. -/
def Laid (ms : List Member) (sizes : List Nat) (i : Intro) : Prop :=
  i.entries.length = ms.length ∧ i.classSize = sum (bytes ms sizes) ∧
  ∀ (k : Nat) m n e, ms[k]? = some m → sizes[k]? = some n → i.entries[k]? = some e →
    e.name = m.name ∧ e.type = m.type ∧ e.size = n ∧ e.dims = some m.dims ∧ e.offset = sum ((bytes ms sizes).take k)

end Verif.Spec.StructDecl
