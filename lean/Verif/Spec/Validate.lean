import Verif.Model.Validate
import Verif.Spec.IntText
/-!
# Specification of the validation by attributes (C78)

Only the types of the attributes and of the values are taken from the model.
-/
namespace Verif.Spec.Validate
open Verif.Validate (Text Attr Attrs Value)
open Verif.Spec.IntText (IsDigit digitsValue)

/-- The decimal text of a number: a minus sign if it is negative, then its digits without superfluous zeros. -/
def Decimal (n : Int) (t : Text) : Prop :=
  ∃ body, t = (if n < 0 then [45] else []) ++ body ∧ (∀ c ∈ body, IsDigit c) ∧ body ≠ [] ∧ digitsValue 0 body = n.natAbs ∧
    (body.head? = some 48 → body = [48])

/-- What the attributes ask for. -/
structure Rules (α : Type) where
  max : Option α
  min : Option α
  minSize : Option Nat
  maxSize : Option Nat
  values : Option (List α)

/-- An attribute is absent, or is written so. -/
def Written (writes : α → Text → Prop) (x : Option α) (a : Option Attr) : Prop :=
  (x = none ∧ a = none) ∨ ∃ v t, x = some v ∧ a = some (.one t) ∧ writes v t

/-- A list of the same length with each text for its value. -/
def WrittenList (writes : α → Text → Prop) (x : Option (List α)) (a : Option Attr) : Prop :=
  (x = none ∧ a = none) ∨ ∃ vs ts, x = some vs ∧ a = some (.list ts) ∧ vs.length = ts.length ∧
    ∀ (i : Nat) v t, vs[i]? = some v → ts[i]? = some t → writes v t

/-- A size, in decimal. -/
def WritesSize (n : Nat) (t : Text) : Prop := n < 2 ^ 32 ∧ Decimal n t

/-- The attributes are written for the rules. -/
def WrittenRules (writes : α → Text → Prop) (r : Rules α) (a : Attrs) : Prop :=
  Written writes r.max a.max ∧ Written writes r.min a.min ∧ Written WritesSize r.minSize a.minSize ∧ Written WritesSize r.maxSize a.maxSize ∧
    WrittenList writes r.values a.values

/-- A value of a given size keeps the rules. -/
def Keeps (le : α → α → Prop) (size : Nat) (r : Rules α) (v : α) : Prop :=
  (∀ m, r.max = some m → le v m) ∧ (∀ m, r.min = some m → le m v) ∧ (∀ n, r.minSize = some n → n ≤ size) ∧ (∀ n, r.maxSize = some n → size ≤ n) ∧
    (∀ l, r.values = some l → v ∈ l)

/-- The elements of a value. -/
def elements : Value α → List α
  | .scalar v => [v]
  | .vector l => l
  | .block _ _ l => l
  | .heap _ _ l _ => l.flatten

/-- One, a vector, or a matrix with as many rows as columns, whose memory is all there. -/
def Square : Value α → Prop
  | .scalar _ => True
  | .vector _ => True
  | .block rows cols l => rows = cols ∧ l.length = rows * cols
  | .heap rows cols l _ => rows = cols ∧ l.length = rows ∧ ∀ row, row ∈ l → row.length = cols

end Verif.Spec.Validate
