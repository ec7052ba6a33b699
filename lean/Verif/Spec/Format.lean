import Verif.Model.Format
/-!
# What a format of `Printf` means

Written from the documentation of the formats (`%[flags][width][.precision]type`), not from the code.  Taken from the model:
the types of the parameters (`Arg`, `Scalar`) and of what a print does (`Out`).
-/
namespace Verif.Spec.Format
open Verif.Format (Arg Scalar Out)

/-! ## The text of a format -/

/-- Flags: blanks, left aligned, zeros, full notation, and the three grammars of arrays. -/
inductive Flag | blank | minus | zero | full | standard | json | xml
deriving DecidableEq, Repr

def Flag.char : Flag → Char
  | .blank => ' ' | .minus => '-' | .zero => '0' | .full => '#' | .standard => 'S' | .json => 'J' | .xml => 'X'

/-- The letter at the end. -/
inductive Letter | any | info | struct | d | i | u | s | c | f | F | e | E | g | G | x | p | o | b
deriving DecidableEq, Repr

def Letter.char : Letter → Char
  | .any => '!' | .info => '?' | .struct => '@' | .d => 'd' | .i => 'i' | .u => 'u' | .s => 's' | .c => 'c'
  | .f => 'f' | .F => 'F' | .e => 'e' | .E => 'E' | .g => 'g' | .G => 'G' | .x => 'x' | .p => 'p' | .o => 'o' | .b => 'b'

/-- The digits of numbers. -/
def digitChar (d : Nat) : Char := "0123456789ABCDEF".toList.getD d '?'

/-- The value of digits in a base. -/
def value (base : Nat) (ds : List Nat) : Nat := ds.foldl (fun a d => base * a + d) 0

/-- A field: flags, the digits of the width (none: no width), the digits of the precision after a point, the letter. -/
structure Directive where
  flags : List Flag
  width : List Nat
  precision : Option (List Nat)
  letter : Letter
deriving DecidableEq, Repr

def Directive.text (d : Directive) : List Char :=
  ['%'] ++ d.flags.map Flag.char ++ d.width.map digitChar ++
  (match d.precision with
    | none => []
    | some ds => ['.'] ++ ds.map digitChar) ++ [d.letter.char]

/-- The digits are digits, and a width does not begin with a zero (which is a flag). -/
def Directive.wf (d : Directive) : Prop :=
  (∀ x ∈ d.width, x < 10) ∧ (∀ x ∈ d.precision.getD [], x < 10) ∧ d.width.head? ≠ some 0

/-- The numbers fit in 32 bits. -/
def Directive.small (d : Directive) : Prop := value 10 d.width < 2 ^ 32 ∧ value 10 (d.precision.getD []) < 2 ^ 32

/-! ## Its meaning -/

/-- The width: 255 at most, zero if there is none. -/
def Directive.size (d : Directive) : Nat := min (value 10 d.width) 255
def Directive.padded (d : Directive) : Bool := d.flags.contains .blank || d.flags.contains .minus
def Directive.left (d : Directive) : Bool := d.flags.contains .minus
def Directive.zeros (d : Directive) : Bool := d.flags.contains .zero || d.letter = .p
def Directive.full (d : Directive) : Bool := d.flags.contains .full || d.letter = .p
def Directive.base (d : Directive) : Nat :=
  match d.letter with
  | .x => 16 | .p => 16 | .o => 8 | .b => 2 | _ => 10

/-- What is printed in a field of a given width, when it is shorter: blanks, or zeros, on one side. -/
def fill (w : Nat) (padded left : Bool) (c : Char) (body : List Char) : List Char :=
  if padded then
    if left then body ++ List.replicate (w - body.length) ' ' else List.replicate (w - body.length) c ++ body
  else body

/-- A text, in quotes or not. -/
def quoted (q : Bool) (s : List Char) : List Char := if q then ['"'] ++ s ++ ['"'] else s

/-- A text in a field: cut so that it fits with its quotes, and filled with blanks if padding is asked. -/
def textField (w : Nat) (padded left quotes : Bool) (s : List Char) : List Char :=
  fill w padded left ' ' (quoted quotes (if w = 0 then s else s.take (w - if quotes then 2 else 0)))

/-- A number in a field: a question mark if it does not fit. -/
def numField (w : Nat) (padded left : Bool) (c : Char) (body : List Char) : List Char :=
  fill w padded left c (if w = 0 ∨ body.length ≤ w then body else ['?'])

/-- A decimal number, of which `neg` is the sign and `ds` the digits, in a field; zeros are between the sign and the digits,
or after a number that is left aligned blanks. -/
def decimalField (w : Nat) (padded left zeros neg : Bool) (ds : List Char) : List Char :=
  let sign := if neg then ['-'] else []
  if zeros = true ∧ left = false ∧ (sign ++ ds).length ≤ w then sign ++ List.replicate (w - (sign ++ ds).length) '0' ++ ds
  else numField w (padded || zeros) left (if zeros then '0' else ' ') (sign ++ ds)

/-- `ds` are digits of the base, with the given value. -/
def Numeral (base : Nat) (ds : List Nat) (v : Nat) : Prop := ds ≠ [] ∧ (∀ d ∈ ds, d < base) ∧ value base ds = v

/-- What announces the base in the full notation. -/
def header (base : Nat) : List Char :=
  if base = 16 then ['0', 'x'] else if base = 8 then ['0', 'o'] else if base = 2 then ['0', 'b'] else []

/-- Bits of a digit. -/
def digitBits (base : Nat) : Nat := if base = 16 then 4 else if base = 8 then 3 else 1

/-- How many digits of the base a number of the given bits has at least: with the flag of the zeros all its bits are written,
as far as they fit in the field with the header. -/
def Directive.minDigits (d : Directive) (bits : Nat) : Nat :=
  if d.zeros = false then 0
  else if d.size = 0 then (bits + digitBits d.base - 1) / digitBits d.base
  else min ((bits + digitBits d.base - 1) / digitBits d.base) (d.size - if d.full then 2 else 0)

/-- The precision of floating point numbers: 255 at most, and if it is not given. -/
def Directive.prec (d : Directive) : Nat :=
  match d.precision with
  | none => 255
  | some [] => 255
  | some ds => min (value 10 ds) 255

/-- The notation of floating point numbers that a letter asks for; the other letters ask for no notation. -/
def floatStyle : Letter → FloatPrint.Notation
  | .F => .relative | .e => .exponent | .E => .engineering | .g => .smart | .G => .compact | _ => .fixed

/-! ## Formats -/

/-- A format is made of texts and fields. -/
inductive Piece
  | text (s : List Char)
  | field (d : Directive)

def Piece.render : Piece → List Char
  | .text s => s
  | .field d => d.text

def render (ps : List Piece) : List Char := (ps.map Piece.render).flatten

/-- Texts have no percent. -/
def Piece.wf : Piece → Prop
  | .text s => '%' ∉ s
  | .field d => d.wf

/-- What a format prints, if `one d a` is what the field `d` alone prints for the parameter `a`: texts as they are, each field
with the next parameter, fields without parameters not at all, and nothing more after a field that fails. -/
def expected (one : Directive → Arg → Out) : List Piece → List Arg → Out
  | [], _ => some (true, [])
  | .text s :: ps, args => (expected one ps args).map fun r => (r.1, s ++ r.2)
  | .field _ :: ps, [] => expected one ps []
  | .field d :: ps, a :: args =>
    match one d a with
    | none => none
    | some (false, t) => some (false, t)
    | some (true, t) => (expected one ps args).map fun r => (r.1, t ++ r.2)

/-- The name of the type of a parameter. -/
def typeName : Scalar → String
  | .int t _ => if t.signed then "Signed Integer" else "Unsigned Integer"
  | .bool _ => "BooleanType"
  | .text _ _ => "Char String"
  | .pointer _ => "Pointer"
  | .stream _ _ _ => "Stream"
  | .float _ _ => "Float"

/-- The texts of the elements of an array, each followed by a blank, with a separator between them. -/
def elements (sep : List Char) : List (List Char) → List Char
  | [] => []
  | [t] => t ++ [' ']
  | t :: ts => t ++ sep ++ [' '] ++ elements sep ts

/-- The same for the rows of a matrix, already followed by a blank. -/
def rows (sep : List Char) : List (List Char) → List Char
  | [] => []
  | [t] => t
  | t :: ts => t ++ sep ++ rows sep ts

/-- Arrays: braces and blanks with the standard grammar, square brackets and commas with the others. -/
def Directive.json (d : Directive) : Bool := d.flags.contains .json || d.flags.contains .xml
def Directive.oneGrammar (d : Directive) : Prop := ¬ (Flag.json ∈ d.flags ∧ Flag.xml ∈ d.flags)
def openMark (j : Bool) : List Char := if j then ['[', ' '] else ['{', ' ']
def closeMark (j : Bool) : List Char := if j then [']', ' '] else ['}', ' ']
def sepMark (j : Bool) : List Char := if j then [','] else []

end Verif.Spec.Format
