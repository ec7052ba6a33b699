import Verif.Model.DirScan
/-!
# The files of a directory
-/
namespace Verif.DirScan.Spec
open Verif.DirScan

/-- The path of the directory with its separator: it is the text that was given, with one more separator if it did not end with one. -/
def directory (path base : Text) : Prop := (path ≠ [] ∧ (base = path ∨ base = path ++ ['/']) ∧ (∃ q, base = q ++ ['/']) ∧ (base ≠ path → ¬ ∃ q, path = q ++ ['/'])) ∨ (path = [] ∧ base = ['/'])

/-- The total size of the files, without the directory itself and its parent. -/
def total (size : Text → Option Nat) (base : Text) : List Text → Nat
  | [] => 0
  | name :: rest => (if name = ".".toList ∨ name = "..".toList then 0 else (size (base ++ name)).getD 0) + total size base rest

/-- Each path fits in 511 characters. -/
def fits (base : Text) (names : List Text) : Prop := ∀ name ∈ names, (base ++ name).length ≤ 511

end Verif.DirScan.Spec
