import Verif.Spec.XmlDoc
import Verif.Spec.ConfigText
/-! ## Specification: the text of a document in the XML language

A text is a sequence of pieces: blanks, comments `<!-- … -->`, signs, bare words and quoted strings. -/
namespace Verif.Spec.XmlText
open Verif.Spec.XmlDoc (XWord)
open Verif.Spec.Lexer (QChar numberLike)
open Verif.Lexer (Kind)
open Verif.Spec.ConfigText (quote)

def blanks : List Char := ['\n', '\r', '\t', ',', ' ']
def signs : List Char := ['<', '>', '{', '}', '/', '(', ')']

inductive XPiece
  | blank (c : Char)
  | comment (body : List Char)
  | sign (c : Char)
  | bare (w : List Char)
  | quoted (s : List QChar)
deriving DecidableEq

def XPiece.text : XPiece → List Char
  | .blank c => [c]
  | .comment b => '<' :: '!' :: '-' :: '-' :: (b ++ ['-', '-', '>'])
  | .sign c => [c]
  | .bare w => w
  | .quoted s => '"' :: (s.flatMap QChar.text ++ ['"'])

def text (ps : List XPiece) : List Char := ps.flatMap XPiece.text

/-- The end of a comment occurs in its body. -/
def hasEnd : List Char → Bool
  | [] => false
  | c :: cs => ['-', '-', '>'].isPrefixOf (c :: cs) || hasEnd cs

/-- A character of bare words. -/
def plain (c : Char) : Bool := !blanks.contains c && !signs.contains c && c ≠ '"' && c ≠ '\\' && c ≠ '\x00'

/-- A piece is well formed. -/
def XPiece.ok : XPiece → Bool
  | .blank c => blanks.contains c
  | .comment b => !hasEnd b
  | .sign c => signs.contains c
  | .bare w => w ≠ [] && w.all plain
  | .quoted s => s.all QChar.ok

/-- A piece can be followed by another one, or by the end of the text: after a bare word there is no other word, and
after `<` there is something that is not a comment and does not start with an exclamation mark. -/
def XPiece.before : XPiece → Option XPiece → Bool
  | .bare _, some (.bare _) => false
  | .bare _, some (.quoted _) => false
  | .sign '<', none => false
  | .sign '<', some (.comment _) => false
  | .sign '<', some (.bare w) => w.head? ≠ some '!'
  | _, _ => true

/-- A text of the language. -/
def ok : List XPiece → Bool
  | [] => true
  | p :: ps => p.ok && p.before ps.head? && ok ps

/-- The token of a piece; `num` tells if a text is a number. -/
def XPiece.token (num : List Char → Bool) : XPiece → Option (Kind × List Char)
  | .sign c => some (.terminal, [c])
  | .bare w => some (if numberLike w && num w then .number else .string, w)
  | .quoted s => some (.string, s.flatMap QChar.value)
  | _ => none

/-- The tokens of a text. -/
def tokens (num : List Char → Bool) (ps : List XPiece) : List (Kind × List Char) := ps.filterMap (XPiece.token num)

/-- The token of a word. -/
def token : XWord → Kind × List Char
  | .str s => (.string, s)
  | .num s => (.number, s)
  | .lt => (.terminal, ['<'])
  | .gt => (.terminal, ['>'])
  | .slash => (.terminal, ['/'])
  | .lp => (.terminal, ['('])
  | .rp => (.terminal, [')'])
  | .lb => (.terminal, ['{'])
  | .rb => (.terminal, ['}'])

/-- `ps` is a text of the XML language that says the words `ws`: with any layout, commas anywhere, and comments. -/
def Says (num : List Char → Bool) (ps : List XPiece) (ws : List XWord) : Prop :=
  ok ps = true ∧ tokens num ps = ws.map token

/-- A way to write a word: strings between quotes, numbers as they are. -/
def piece : XWord → XPiece
  | .str s => .quoted (s.map quote)
  | .num s => .bare s
  | .lt => .sign '<'
  | .gt => .sign '>'
  | .slash => .sign '/'
  | .lp => .sign '('
  | .rp => .sign ')'
  | .lb => .sign '{'
  | .rb => .sign '}'

/-- Words with a blank after each. -/
def write (ws : List XWord) : List XPiece := ws.flatMap fun w => [piece w, .blank ' ']

/-- A word that can be written: a string without zeros, a number that is one. -/
def writable (num : List Char → Bool) : XWord → Bool
  | .str s => !s.contains '\x00'
  | .num s => (XPiece.bare s).ok && numberLike s && num s
  | _ => true

end Verif.Spec.XmlText
