/-!
# Percent-encoding (RFC 3986, 2.1) and the parts of a request (RFC 7230, 3.1.1)
-/
namespace Verif.Spec.HttpUrl

/-- The value of a hexadecimal digit, in both cases. -/
def hexValue (c : Char) : Option Nat :=
  if '0' ≤ c ∧ c ≤ '9' then some (c.toNat - '0'.toNat)
  else if 'a' ≤ c ∧ c ≤ 'f' then some (c.toNat - 'a'.toNat + 10)
  else if 'A' ≤ c ∧ c ≤ 'F' then some (c.toNat - 'A'.toNat + 10)
  else none

/-- `Percent e t`: the text `e` is a coding of `t`.  Every character may be coded, only `%` must be. -/
inductive Percent : List Char → List Char → Prop
  | nil : Percent [] []
  | plain {c : Char} {e t : List Char} (h : c ≠ '%') : Percent e t → Percent (c :: e) (c :: t)
  | code {a b : Char} {x y : Nat} {e t : List Char} (ha : hexValue a = some x) (hb : hexValue b = some y) :
      Percent e t → Percent ('%' :: a :: b :: e) (Char.ofNat (16 * x + y) :: t)

/-- Characters that separate the parts of a request line: white space, the beginning of the query, of a part of the path, of a
command and of its value. -/
def separators : List Char := [' ', '\t', '\r', '\n', '\x00', '?', '/', '\\', '&', '=']

/-- A part of a request, as it is sent (`sent`) and what it means (`text`). -/
structure Part where
  sent : List Char
  text : List Char
  coded : Percent sent text
  clean : ∀ c ∈ sent, c ∉ separators

/-- Texts one after the other with a separator between them. -/
def joined (sep : Char) : List (List Char) → List Char
  | [] => []
  | [a] => a
  | a :: b :: l => a ++ sep :: joined sep (b :: l)

/-- `/` and the parts of the path. -/
def sentPath (path : List Part) : List Char := '/' :: joined '/' (path.map fun p => p.sent)

/-- A command: name, `=`, value. -/
def sentCommand (c : Part × Part) : List Char := c.1.sent ++ '=' :: c.2.sent

/-- The commands, with `&` between them. -/
def sentQuery (q : List (Part × Part)) : List Char := joined '&' (q.map sentCommand)

end Verif.Spec.HttpUrl
