import Verif.Model.IntText
/-!
# What decimal text means

`IType` (width, signedness) is the only thing taken from the model.
-/
namespace Verif.Spec.IntText
open Verif.IntText (IType)

/-- The C++ integer types. -/
def IsCxxType (t : IType) : Prop := t.w = 8 ∨ t.w = 16 ∨ t.w = 32 ∨ t.w = 64

/-- Smallest and largest value of the type. -/
def minVal (t : IType) : Int := if t.signed then -(2 ^ (t.w - 1)) else 0
def maxVal (t : IType) : Int := if t.signed then 2 ^ (t.w - 1) - 1 else 2 ^ t.w - 1

def InRange (t : IType) (v : Int) : Prop := minVal t ≤ v ∧ v ≤ maxVal t

/-- ASCII digit. -/
def IsDigit (c : UInt8) : Prop := 48 ≤ c.toNat ∧ c.toNat ≤ 57

/-- Value of a string of digits in base ten, after a prefix of value `acc`. -/
def digitsValue (acc : Int) (cs : List UInt8) : Int :=
  cs.foldl (fun acc c => 10 * acc + ((c.toNat : Int) - 48)) acc

/-- An optional sign and the rest of the text. -/
inductive Sign | none | plus | minus
deriving DecidableEq

def Sign.text : Sign → List UInt8
  | .none => []
  | .plus => [43]
  | .minus => [45]

/-- Signed value of a text. -/
def signedValue (s : Sign) (body : List UInt8) : Int :=
  match s with
  | .minus => -(digitsValue 0 body)
  | _ => digitsValue 0 body

end Verif.Spec.IntText
