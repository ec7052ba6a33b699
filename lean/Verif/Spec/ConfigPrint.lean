import Verif.Spec.Forest
import Verif.Spec.ConfigText
/-! ## Specification: configurations that can be written as text -/
namespace Verif.Spec.ConfigPrint
open Verif.Config (Leaf Val)
open Verif.ConfigDb (Name)
open Verif.Spec.ConfigDoc (nameOk)
open Verif.Spec.ConfigText (writable)
open Verif.Spec.Lexer (Piece standard numberLike)

variable {B : Type} (pr : Nat → B → List Char) (num : List Char → Bool)

/-- The text of an element. -/
def elementText (ty : Nat) : Val B → List Char
  | .text s => s
  | .num b => pr ty b

/-- The same value with texts instead of numbers. -/
def asText (v : Leaf B) : Leaf B := ⟨0, v.dims, v.cols, v.rows, v.data.map fun x => .text (elementText pr v.ty x)⟩

/-- The number of elements is right: one for a scalar, the columns for a vector, rows times columns for a matrix. -/
def shaped (v : Leaf B) : Bool :=
  (v.dims == 0 && v.cols == 1 && v.rows == 1 || v.dims == 1 && v.rows == 1 || v.dims == 2) &&
  decide (1 ≤ v.cols) && decide (1 ≤ v.rows) && v.data.length == v.rows * v.cols

/-- A text that needs no backslash between quotes. -/
def plainText (s : List Char) : Bool := s.all fun c => c ≠ '"' && c ≠ '\\' && c ≠ '\x00'

def isText : Val B → Bool
  | .text _ => true
  | .num _ => false

/-- An element that can be written. -/
def goodElement (ty : Nat) : Val B → Bool
  | .text s => plainText s
  | .num b => writable num (.num (pr ty b))

/-- A value that can be written: all strings or all numbers. -/
def goodLeaf (v : Leaf B) : Bool :=
  shaped v && v.data.all (goodElement pr num v.ty) && (v.data.all isText || v.data.all (!isText ·))

/-- A name that can be written without quotes. -/
def goodName (n : Name) : Bool := nameOk n && (Piece.bare n).ok standard && !(numberLike n && num n)

/-- A value of strings. -/
def ofStrings (v : Leaf B) : Bool := v.ty == 0 && v.data.all isText

/-- A single number. -/
def oneNumber (v : Leaf B) : Bool := v.dims == 0 && !v.data.all isText

/-- A single number is the last child of its node. -/
def numbersLast : Spec.ConfigDb.Forest (Leaf B) → Bool
  | .nil => true
  | .leaf _ _ .nil => true
  | .leaf _ v r => !oneNumber v && numbersLast r
  | .node _ s r => numbersLast s && numbersLast r

end Verif.Spec.ConfigPrint
