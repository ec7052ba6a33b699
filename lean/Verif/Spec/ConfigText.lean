import Verif.Spec.ConfigDoc
import Verif.Spec.Lexer
/-! ## Specification: the text of a document -/
namespace Verif.Spec.ConfigText
open Verif.Spec.ConfigDoc (Word)
open Verif.Spec.Lexer (Piece QChar standard numberLike)
open Verif.Lexer (Kind)

/-- The token of a word. -/
def token : Word → Kind × List Char
  | .str s => (.string, s)
  | .num s => (.number, s)
  | .eq => (.terminal, ['='])
  | .lp => (.terminal, ['('])
  | .rp => (.terminal, [')'])
  | .bar => (.terminal, ['|'])
  | .lb => (.terminal, ['{'])
  | .rb => (.terminal, ['}'])

/-- `ps` is a text of the standard language that says the words `ws`: with any layout. -/
def Says (num : List Char → Bool) (ps : List Piece) (ws : List Word) : Prop :=
  Lexer.ok standard ps = true ∧ Lexer.tokens num ps = ws.map token

/-- A character between quotes. -/
def quote (c : Char) : QChar := if c = '"' ∨ c = '\\' then .esc c else .raw c

/-- A way to write a word: strings between quotes, numbers as they are. -/
def piece : Word → Piece
  | .str s => .quoted (s.map quote)
  | .num s => .bare s
  | .eq => .sign '='
  | .lp => .sign '('
  | .rp => .sign ')'
  | .bar => .sign '|'
  | .lb => .sign '{'
  | .rb => .sign '}'

/-- Words with a blank after each. -/
def write (ws : List Word) : List Piece := ws.flatMap fun w => [piece w, .blank ' ']

/-- A word that can be written: a string without zeros, a number that is one. -/
def writable (num : List Char → Bool) : Word → Bool
  | .str s => !s.contains '\x00'
  | .num s => (Piece.bare s).ok standard && numberLike s && num s
  | _ => true

end Verif.Spec.ConfigText
