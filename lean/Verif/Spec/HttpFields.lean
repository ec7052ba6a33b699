/-!
# Header fields (RFC 7230, 3.2) and forms (RFC 7578) as they are sent
-/
namespace Verif.Spec.HttpFields

def newLine : List Char := ['\r', '\n']

/-- A header field: its name, the white space in front of the value, the value. -/
structure Field where
  name : List Char
  blank : List Char
  value : List Char

/-- The field as it is sent. -/
def Field.sent (f : Field) : List Char := f.name ++ ':' :: f.blank ++ f.value ++ newLine

/-- A value that does not begin or end with white space; the white space inside of it begins with a space. -/
def Value (v : List Char) : Prop :=
  (∀ c ∈ v, c ∉ ['\r', '\n', '\x00']) ∧
  (v = [] ∨ ∃ word rest, v = word ++ rest ∧ word ≠ [] ∧ (∀ c ∈ word, c ≠ ' ' ∧ c ≠ '\t') ∧
    (rest = [] ∨ ∃ r, rest = ' ' :: r ∧ r ≠ []))

/-- A field that follows the standard. -/
def Field.Ok (f : Field) : Prop :=
  f.name ≠ [] ∧ (∀ c ∈ f.name, c ∉ [' ', '\t', ':', '\r', '\n', '\x00']) ∧ (∀ c ∈ f.blank, c = ' ' ∨ c = '\t') ∧ Value f.value

/-- A part of a form: its name, the name and the type of the file if it is one, the lines of its content. -/
structure Part where
  name : List Char
  file : Option (List Char × List Char)
  lines : List (List Char)

/-- The part as it is sent, from its boundary on. -/
def Part.sent (boundary : List Char) (p : Part) : List Char :=
  "--".toList ++ boundary ++ newLine ++ "Content-Disposition: form-data; name=\"".toList ++ p.name ++ "\"".toList ++
  (match p.file with
    | none => []
    | some (f, t) => "; filename=\"".toList ++ f ++ "\"".toList ++ newLine ++ "Content-Type: ".toList ++ t) ++
  newLine ++ newLine ++ p.lines.flatMap (· ++ newLine)

/-- The form as it is sent. -/
def sentForm (boundary : List Char) (parts : List Part) : List Char :=
  parts.flatMap (Part.sent boundary) ++ "--".toList ++ boundary ++ "--".toList ++ newLine

/-- The lines with a new line between them. -/
def content : List (List Char) → List Char
  | [] => []
  | [l] => l
  | l :: ls => l ++ '\n' :: content ls

/-- What is stored of a part: the file and its type, and the content. -/
def Part.stored (p : Part) : List (List Char × List Char) :=
  (match p.file with
    | none => []
    | some (f, t) => [(p.name ++ ":filename".toList, f), (p.name ++ ":Content-Type".toList, t)]) ++
  [(p.name, content p.lines)]

/-- A text of one line. -/
def OneLine (l : List Char) : Prop := ∀ c ∈ l, c ∉ ['\r', '\n', '\x00']

/-- A boundary that can be sent in a header. -/
def Boundary (B : List Char) : Prop := OneLine B ∧ '=' ∉ B ∧ '"' ∉ B

/-- A part that can be sent: the names are not empty and without quotes and equal signs; the lines are not empty and do not
contain the boundary. -/
def Part.Ok (boundary : List Char) (p : Part) : Prop :=
  p.name ≠ [] ∧ OneLine p.name ∧ '"' ∉ p.name ∧ '=' ∉ p.name ∧
  (∀ f t, p.file = some (f, t) → f ≠ [] ∧ OneLine f ∧ '"' ∉ f ∧ OneLine t) ∧
  ∀ l ∈ p.lines, l ≠ [] ∧ OneLine l ∧ ¬ ("--".toList ++ boundary) <:+: l

end Verif.Spec.HttpFields
