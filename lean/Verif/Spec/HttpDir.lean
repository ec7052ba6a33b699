import Verif.Spec.CStrings
import Verif.Model.HttpDir
/-! # Specification of the files of a web directory -/
namespace Verif.Spec.HttpDir
open Verif.Spec.CStrings (lower)

/-- The parts of a name between the slashes. -/
def parts : List Nat → List (List Nat)
  | [] => [[]]
  | c :: s =>
    if c = '/'.toNat then [] :: parts s
    else match parts s with
      | [] => [[c]]
      | p :: ps => (c :: p) :: ps

/-- One part of a name, from the directory reached so far (from the root down; links are not considered). -/
def enter (place : List (List Nat)) (part : List Nat) : List (List Nat) :=
  if part = [] ∨ part = ['.'.toNat] then place
  else if part = ['.'.toNat, '.'.toNat] then place.dropLast
  else place ++ [part]

/-- The place that an absolute name denotes. -/
def place (name : List Nat) : List (List Nat) := (parts name).foldl enter []

/-- The place is in that directory. -/
def Inside (dir name : List Nat) : Prop := place dir <+: place name

/-- The content types, by the ending of the name. -/
def types : List (String × String) :=
  [(".html", "text/html"), (".htm", "text/html"), (".txt", "text/plain"), (".csv", "text/csv"), (".css", "text/css"),
   (".gif", "image/gif"), (".jpeg", "image/jpg"), (".jpg", "image/jpg"), (".jnlp", "image/jnlp"),
   (".js", "application/x-javascript")]

/-- The name ends like that, in any case. -/
def EndsWith (name : List Nat) (ending : String) : Prop := ∃ stem e, name = stem ++ e ∧ lower e = ending.toList.map Char.toNat

end Verif.Spec.HttpDir
