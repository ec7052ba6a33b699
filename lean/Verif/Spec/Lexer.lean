import Verif.Model.Lexer
/-! ## Specification: texts made of words and layout

A text is a sequence of pieces: blanks, comments, signs, bare words and quoted strings.  `tokens` is what the text says,
`text` how it is written. -/
namespace Verif.Spec.Lexer
open Verif.Lexer (Kind Grammar)

/-- A language: the blanks, the signs, and whether it has comments. -/
structure Language where
  blanks : List Char
  signs : List Char
  comments : Bool

/-- The standard configuration language, and JSON. -/
def standard : Language := ⟨"\n\r\t, ".toList, "={}{}{}()|".toList, true⟩
def json : Language := ⟨"\n\r\t, ".toList, ":{}[][]".toList, false⟩

/-- The grammar given to the analyser. -/
def Language.grammar (L : Language) : Grammar where
  seps := L.blanks
  terms := L.signs
  keywords := []
  oneLine := if L.comments then "//".toList else []
  multiBegin := if L.comments then "/*".toList else []
  multiEnd := if L.comments then "*/".toList else []

/-- Characters that a language cannot have as blanks or signs. -/
def reserved : List Char := ['"', '\\', '/', '*', '\x00']

def Language.ok (L : Language) : Bool :=
  reserved.all (fun c => !L.blanks.contains c && !L.signs.contains c) && L.signs.all (!L.blanks.contains ·)

/-- A character of a quoted string: as it is, or after a backslash. -/
inductive QChar
  | raw (c : Char)
  | esc (c : Char)
deriving DecidableEq

def QChar.text : QChar → List Char
  | .raw c => [c]
  | .esc c => ['\\', c]

/-- What it stands for. -/
def QChar.value : QChar → List Char
  | .raw c => [c]
  | .esc 'n' => ['\n']
  | .esc 't' => ['\t']
  | .esc 'r' => ['\r']
  | .esc '"' => ['"']
  | .esc '\\' => ['\\']
  | .esc c => ['\\', c]

def QChar.ok : QChar → Bool
  | .raw c => c ≠ '"' && c ≠ '\\' && c ≠ '\x00'
  | .esc c => c ≠ '\x00'

/-- The pieces of a text. -/
inductive Piece
  | blank (c : Char)
  | lineComment (body : List Char)
  | blockComment (body : List Char)
  | sign (c : Char)
  | bare (w : List Char)
  | quoted (s : List QChar)
deriving DecidableEq

def Piece.text : Piece → List Char
  | .blank c => [c]
  | .lineComment b => "//".toList ++ b ++ ['\n']
  | .blockComment b => "/*".toList ++ b ++ "*/".toList
  | .sign c => [c]
  | .bare w => w
  | .quoted s => '"' :: (s.flatMap QChar.text ++ ['"'])

def text (ps : List Piece) : List Char := ps.flatMap Piece.text

/-- Two characters that start a comment occur in a word. -/
def hasComment : List Char → Bool
  | [] => false
  | c :: cs => (c = '/' && (cs.head? = some '/' || cs.head? = some '*')) || hasComment cs

/-- The end of a comment occurs in its body. -/
def hasEnd : List Char → Bool
  | [] => false
  | c :: cs => (c = '*' && cs.head? = some '/') || hasEnd cs

/-- A piece is well formed. A comment of one line is not empty. -/
def Piece.ok (L : Language) : Piece → Bool
  | .blank c => L.blanks.contains c
  | .lineComment b => L.comments && b ≠ [] && !b.contains '\n'
  | .blockComment b => L.comments && !hasEnd b
  | .sign c => L.signs.contains c
  | .bare w => w ≠ [] && w.all (fun c => !L.blanks.contains c && !L.signs.contains c && c ≠ '"' && c ≠ '\\' && c ≠ '\x00')
      && !(L.comments && hasComment w)
  | .quoted s => s.all QChar.ok

/-- A piece can be followed by another one, or by the end of the text: a bare word is followed by a blank, a sign, a
comment or the end; if it ends with a slash, and there are comments, then by a blank or a sign. -/
def Piece.before (L : Language) : Piece → Option Piece → Bool
  | .bare _, some (.blank _) => true
  | .bare _, some (.sign _) => true
  | .bare _, some (.bare _) => false
  | .bare _, some (.quoted _) => false
  | .bare w, _ => !(L.comments && w.getLast? = some '/')
  | _, _ => true

/-- A text of the language. -/
def ok (L : Language) : List Piece → Bool
  | [] => true
  | p :: ps => p.ok L && p.before L ps.head? && ok L ps

/-- A digit, after a sign or not, and anything else: what may be a number. -/
def numberLike : List Char → Bool
  | '+' :: w => (w.head?.map Char.isDigit).getD false
  | '-' :: w => (w.head?.map Char.isDigit).getD false
  | w => (w.head?.map Char.isDigit).getD false

/-- The token of a piece; `num` tells if a text is a number. -/
def Piece.token (num : List Char → Bool) : Piece → Option (Kind × List Char)
  | .sign c => some (.terminal, [c])
  | .bare w => some (if numberLike w && num w then .number else .string, w)
  | .quoted s => some (.string, s.flatMap QChar.value)
  | _ => none

/-- The tokens of a text. -/
def tokens (num : List Char → Bool) (ps : List Piece) : List (Kind × List Char) := ps.filterMap (Piece.token num)

/-- The tokens with their lines: the line of a token is the number of ends of line before it, plus one. -/
def tokensAt (num : List Char → Bool) : (before : List Char) → List Piece → List (Kind × List Char × Nat)
  | _, [] => []
  | b, p :: ps => match p.token num with
    | some (k, s) => (k, s, b.count '\n' + 1) :: tokensAt num (b ++ p.text) ps
    | none => tokensAt num (b ++ p.text) ps

/-- No comment of many lines and no quoted string contains an end of line. -/
def oneLined (ps : List Piece) : Bool := ps.all fun
  | .blockComment b => !b.contains '\n'
  | .quoted s => !(s.flatMap QChar.value).contains '\n'
  | _ => true

/-- What calls answer: `GetToken` the next token, `PeekToken(p)` the one `p` places ahead; at the end, and after it, the
end-of-file token. -/
def answers : List (Kind × List Char) → List Verif.Lexer.Call → List (Kind × List Char)
  | _, [] => []
  | ts, .get :: cs => ts.headD (.eof, []) :: answers ts.tail cs
  | ts, .peek p :: cs => ts.getD p (.eof, []) :: answers ts cs

/-- `PeekToken` is called for the first token, for the second, and so on: never two places beyond the farthest token
seen so far. `seen` is the number of tokens ahead already seen. -/
def stepwise : (seen : Nat) → List Verif.Lexer.Call → Bool
  | _, [] => true
  | n, .get :: cs => stepwise (n - 1) cs
  | n, .peek p :: cs => decide (p ≤ n) && stepwise (max n (p + 1)) cs

end Verif.Spec.Lexer
