/-!
# Specification of decimal texts (for C68)
-/
namespace Verif.Spec.TextFloat

/-- The text of a list of digits. -/
def text (ds : List Nat) : List Char := ds.map fun d => Char.ofNat (48 + d)

/-- A list of decimal digits. -/
def Digits (ds : List Nat) : Prop := ∀ d ∈ ds, d < 10

/-- The number that a list of digits stands for, with the most significant first. -/
def number (ds : List Nat) : Nat := ds.foldl (fun n d => 10 * n + d) 0

/-- A text that may precede a number, and its sign. -/
inductive Sign : List Char → Int → Prop
  | none : Sign [] 1
  | plus : Sign ['+'] 1
  | minus : Sign ['-'] (-1)

/-- The text of a number without an exponent: the digits, and the decimals when there is a dot. -/
def plain (ds : List Nat) : Option (List Nat) → List Char
  | none => text ds
  | some fs => text ds ++ '.' :: text fs

end Verif.Spec.TextFloat
