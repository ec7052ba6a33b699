import Verif.Spec.IntText
/-!
# What a text in base 16, 8 or 2 means
-/
namespace Verif.Spec.IntText

/-- Value of a character as a digit of base 16 (both cases of the letters). -/
def hexDigit (c : UInt8) : Option Nat :=
  if 48 ≤ c.toNat ∧ c.toNat ≤ 57 then some (c.toNat - 48)
  else if 65 ≤ c.toNat ∧ c.toNat ≤ 70 then some (c.toNat - 55)
  else if 97 ≤ c.toNat ∧ c.toNat ≤ 102 then some (c.toNat - 87)
  else none

/-- The character is a digit of the base. -/
def IsDigitOf (base : Nat) (c : UInt8) : Prop := ∃ d, hexDigit c = some d ∧ d < base

/-- Value of a string of digits in the base. -/
def valueIn (base : Nat) (cs : List UInt8) : Nat :=
  cs.foldl (fun a c => base * a + (hexDigit c).getD 0) 0

end Verif.Spec.IntText
