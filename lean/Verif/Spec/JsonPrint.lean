import Verif.Spec.ConfigPrint
import Verif.Spec.JsonText
/-! ## Specification: configurations that can be written in the JSON language -/
namespace Verif.Spec.JsonPrint
open Verif.Config (Leaf Val)
open Verif.ConfigDb (Name)
open Verif.Spec.ConfigDb (Forest)
open Verif.Spec.ConfigDoc (nameOk)
open Verif.Spec.ConfigPrint (shaped plainText isText)
open Verif.Spec.JsonDoc (blockName)

variable {B : Type} (pr : Nat → B → List Char) (num : List Char → Bool)

/-- An element that can be written. -/
def goodElement (ty : Nat) : Val B → Bool
  | .text s => plainText s
  | .num b => JsonText.writable num (.num (pr ty b))

/-- A value that can be written: all strings or all numbers. -/
def goodLeaf (v : Leaf B) : Bool :=
  shaped v && v.data.all (goodElement pr num v.ty) && (v.data.all isText || v.data.all (!isText ·))

/-- A name that can be written between quotes: numbers and blanks are names, too. -/
def goodName (n : Name) : Bool := nameOk n && plainText n

/-- All names and values can be written. -/
def good (F : Forest (Leaf B)) : Bool := F.allLeaves (fun n v => goodName n && goodLeaf pr num v) && F.allNodes goodName

/-- The part of a name before the first bracket. -/
def before (n : Name) : Name := n.takeWhile (· ≠ '[')

/-- The number that the next block of the list `a` must have, if the block just before is the number `k - 1` of the list
`b`. -/
def index (prev : Option (Name × Nat)) (a : Name) : Nat :=
  match prev with
  | some (b, k) => if b = a then k else 0
  | none => 0

/-- A name of a list. A list inside a list is not named "Idx". -/
def listName (inside : Bool) (a : Name) : Bool :=
  nameOk a && decide (a.length < 2 ^ 31) && !(inside && decide (a = "Idx".toList))

/-- Nodes with a bracket in their name are the blocks of lists: `a[0]`, `a[1]`, ..., in this order and with nothing
between them. `inside`: the forest is inside such a block. -/
def listed : (inside : Bool) → (prev : Option (Name × Nat)) → Forest (Leaf B) → Bool
  | _, _, .nil => true
  | inside, _, .leaf _ _ r => listed inside none r
  | inside, prev, .node n s r =>
    if n.contains '[' then
      listName inside (before n) && decide (n = blockName (before n) (index prev (before n))) && listed true none s &&
        listed inside (some (before n, index prev (before n) + 1)) r
    else listed inside none s && listed inside none r

/-- No node has 2^32 - 1 children. -/
def narrow : Forest (Leaf B) → Bool
  | .nil => true
  | .leaf _ _ r => decide (r.names.length + 1 < 2 ^ 32 - 1) && narrow r
  | .node _ s r => decide (r.names.length + 1 < 2 ^ 32 - 1) && narrow s && narrow r

/-- How deep the blocks are nested; one of a list counts as two. -/
def depth (lists : Bool) : Forest (Leaf B) → Nat
  | .nil => 0
  | .leaf _ _ r => depth lists r
  | .node n s r => max (depth lists s + if lists && n.contains '[' then 2 else 1) (depth lists r)

end Verif.Spec.JsonPrint
