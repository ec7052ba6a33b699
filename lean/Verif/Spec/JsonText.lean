import Verif.Spec.JsonDoc
import Verif.Spec.ConfigText
/-! ## Specification: the text of a document in the JSON language -/
namespace Verif.Spec.JsonText
open Verif.Spec.JsonDoc (JWord)
open Verif.Spec.Lexer (Piece QChar json numberLike)
open Verif.Lexer (Kind)
open Verif.Spec.ConfigText (quote)

/-- The token of a word. -/
def token : JWord → Kind × List Char
  | .str s => (.string, s)
  | .num s => (.number, s)
  | .colon => (.terminal, [':'])
  | .lp => (.terminal, ['('])
  | .rp => (.terminal, [')'])
  | .lbk => (.terminal, ['['])
  | .rbk => (.terminal, [']'])
  | .lbr => (.terminal, ['{'])
  | .rbr => (.terminal, ['}'])

/-- `ps` is a text of the JSON language that says the words `ws`: with any layout, and commas anywhere. -/
def Says (num : List Char → Bool) (ps : List Piece) (ws : List JWord) : Prop :=
  Lexer.ok json ps = true ∧ Lexer.tokens num ps = ws.map token

/-- A way to write a word: strings between quotes, numbers as they are. -/
def piece : JWord → Piece
  | .str s => .quoted (s.map quote)
  | .num s => .bare s
  | .colon => .sign ':'
  | .lp => .sign '('
  | .rp => .sign ')'
  | .lbk => .sign '['
  | .rbk => .sign ']'
  | .lbr => .sign '{'
  | .rbr => .sign '}'

/-- Words with a blank after each. -/
def write (ws : List JWord) : List Piece := ws.flatMap fun w => [piece w, .blank ' ']

/-- A word that can be written: a string without zeros, a number that is one, no parentheses. -/
def writable (num : List Char → Bool) : JWord → Bool
  | .str s => !s.contains '\x00'
  | .num s => (Piece.bare s).ok json && numberLike s && num s
  | .lp => false
  | .rp => false
  | _ => true

end Verif.Spec.JsonText
