import Verif.Spec.XmlText
import Verif.Spec.ConfigPrint
import Verif.Spec.StreamData
/-! ## Specification: the text of a tree, and trees that can be written in the XML language -/
namespace Verif.Spec.XmlPrint
open Verif.Config (Leaf Val)
open Verif.ConfigDb (Name)
open Verif.Json (Printer)
open Verif.Spec.ConfigDb (Forest)
open Verif.Spec.ConfigDoc (nameOk)
open Verif.Spec.ConfigPrint (plainText)
open Verif.Spec.StreamData (shown)
open Verif.Spec.XmlText (XPiece)
open Verif.Spec.Lexer (numberLike)

variable {B : Type}

/-- The elements of a tree one after the other, each with its beginning and its end; after a value the separator of values,
after a node that of nodes, but not after the last one. `sep`: what comes before the first element. -/
def written (p : Printer B) : (sep : List Char) → Forest (Leaf B) → List Char
  | _, .nil => []
  | sep, .leaf n v r => sep ++ p.openVar n ++ shown p v ++ p.closeVar n ++ written p p.varSep r
  | sep, .node n s r => sep ++ p.openBlock n ++ written p [] s ++ p.closeBlock n ++ written p p.blockSep r

variable (pr : Nat → B → List Char) (num : List Char → Bool)

/-- A name that can be the name of a tag: one bare word that is no number and does not begin with an exclamation mark. -/
def goodName (n : Name) : Bool := nameOk n && (XPiece.bare n).ok && decide (n.head? ≠ some '!') && !(numberLike n && num n)

/-- A value that can be written: one string or one number. -/
def goodLeaf (v : Leaf B) : Bool :=
  decide (v.dims = 0) && decide (v.cols = 1) && decide (v.rows = 1) &&
  match v.data with
  | [.text s] => plainText s
  | [.num b] => (XPiece.bare (pr v.ty b)).ok && numberLike (pr v.ty b) && num (pr v.ty b)
  | _ => false

/-- All names and values can be written. -/
def good (F : Forest (Leaf B)) : Bool := F.allLeaves (fun n v => goodName num n && goodLeaf pr num v) && F.allNodes (goodName num)

/-- How deep the nodes are nested. -/
def depth : Forest (Leaf B) → Nat
  | .nil => 0
  | .leaf _ _ r => depth r
  | .node _ s r => max (depth s + 1) (depth r)

end Verif.Spec.XmlPrint
