import Verif.Model.StructReg
/-!
# Which types data have
-/
namespace Verif.Spec.StructReg
open Verif.StructReg (Kids Entry)

/-- Text of the decimal digits of a number. -/
def IsNumeral (n : Nat) (t : List Char) : Prop :=
  t ≠ [] ∧ (∀ c ∈ t, 48 ≤ c.toNat ∧ c.toNat ≤ 57) ∧ t.foldl (fun a c => 10 * a + (c.toNat - 48)) 0 = n ∧ (t.head? = some '0' → t = ['0'])

/-- The members of a structure: values, the name of its type, structures (with the name of their type, empty if it is not given),
arrays of structures: the first one, and the others which should look like it. -/
inductive Members
  | nil
  | value (name type : List Char) (dims : List Nat) (rest : Members)
  | ident (name : List Char) (rest : Members)
  | struct (name typeId : List Char) (body rest : Members)
  | array (name typeId : List Char) (body : Members) (others : List (List Char × Kids)) (rest : Members)

/-- The nodes of the elements of an array, from a number on: `name[1]`, `name[2]`... -/
def elementsFrom (num : Nat → List Char) (name : List Char) : Nat → List (List Char × Kids) → Kids → Kids
  | _, [], after => after
  | i, (tid, k) :: others, after => .node (name ++ ['['] ++ num i ++ [']']) tid k (elementsFrom num name (i + 1) others after)

/-- The data. -/
def data (num : Nat → List Char) : Members → Kids
  | .nil => .nil
  | .value n t d rest => .value n t d (data num rest)
  | .ident n rest => .ident n (data num rest)
  | .struct n tid body rest => .node n tid (data num body) (data num rest)
  | .array n tid body others rest => .node (n ++ ['['] ++ num 0 ++ [']']) tid (data num body) (elementsFrom num n 1 others (data num rest))

/-- The name of the type of a member: the one that is given, or one made of the name of the member. -/
def nameOfType (name typeId : List Char) : List Char := if typeId = [] then "AutoGenerated".toList ++ name else typeId

/-- The members of a structure, as they should be declared. -/
def entries : Members → List Entry
  | .nil => []
  | .value n t d rest => ⟨n, t, if d = [] then [1] else d⟩ :: entries rest
  | .ident _ rest => entries rest
  | .struct n tid _ rest => ⟨n, nameOfType n tid, [1]⟩ :: entries rest
  | .array n tid _ others rest => ⟨n, nameOfType n tid, [others.length + 1]⟩ :: entries rest

/-- The types of the structures inside: each before those of its members. -/
def inner : Members → List (List Char × List Entry)
  | .nil => []
  | .value _ _ _ rest => inner rest
  | .ident _ rest => inner rest
  | .struct n tid body rest => (nameOfType n tid, entries body) :: inner body ++ inner rest
  | .array n tid body _ rest => (nameOfType n tid, entries body) :: inner body ++ inner rest

/-- Names that are not empty, without brackets, and no longer than a C string can be. -/
def Clean (n : List Char) : Prop := n ≠ [] ∧ '[' ∉ n ∧ ']' ∉ n ∧ '\x00' ∉ n ∧ n.length < 2 ^ 31

/-- Clean names, different from each other in each structure; arrays with numbers of 32 bits. -/
def WellNamed : Members → Prop
  | .nil => True
  | .value n _ _ rest => Clean n ∧ n ∉ (entries rest).map (·.name) ∧ WellNamed rest
  | .ident _ rest => WellNamed rest
  | .struct n _ body rest => Clean n ∧ n ∉ (entries rest).map (·.name) ∧ WellNamed body ∧ WellNamed rest
  | .array n _ body others rest => Clean n ∧ n ∉ (entries rest).map (·.name) ∧ others.length < 2 ^ 31 ∧ WellNamed body ∧ WellNamed rest

/-- In each structure no member follows a structure or an array of structures. -/
def StructLast : Members → Prop
  | .nil => True
  | .value _ _ _ rest => StructLast rest
  | .ident _ rest => StructLast rest
  | .struct _ _ body rest => StructLast body ∧ rest = .nil
  | .array _ _ body _ rest => StructLast body ∧ rest = .nil

/-- The types of the values inside. -/
def valueTypes : Members → List (List Char)
  | .nil => []
  | .value _ t _ rest => t :: valueTypes rest
  | .ident _ rest => valueTypes rest
  | .struct _ _ body rest => valueTypes body ++ valueTypes rest
  | .array _ _ body _ rest => valueTypes body ++ valueTypes rest

end Verif.Spec.StructReg
