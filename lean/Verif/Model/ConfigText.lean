import Verif.Model.Lexer
import Verif.Model.ConfigParser
/-!
# Model of the parser of the standard language, from the text

`BareMetal/L4Configuration/ParserI.cpp:93-138` and `StandardParser.cpp`: the tokens of the `LexicalAnalyzer` are the
input of the parser.

Simplification: the parser asks for the tokens one by one; here they are all taken first. That the order of the calls
does not matter is `c52_tokens`.
-/
namespace Verif.Config
open Verif.Parser (Tok Res)
open Verif.Lexer (Token Kind Lex Grammar getToken)

/-- `StandardParser.cpp:91-101, 132-141`: the names of the terminals; 0 has none. -/
def terminalNames : List (List Char) :=
  ["not a symbol", "STRING", "=", "(", ")", "|", "{", "}", "NUMBER", "END_OF_SLK_INPUT"].map String.toList

/-- `LexicalAnalyzer.cpp:345-349`. -/
def description : Kind → List Char
  | .eof => "EOF".toList
  | .string => "STRING".toList
  | .number => "NUMBER".toList
  | .terminal => "TERMINAL".toList

/-- `ParserI.cpp:100-116`: the last name that is the text (or the description) of the token; 0 if there is none. -/
def tokenType (names : List (List Char)) (toCompare : List Char) : Nat :=
  (List.range names.length).foldl (fun ret i => if names.getD i [] = toCompare then i else ret) 0

/-- `ParserI.cpp:93-117`: a token as the parser sees it. -/
def parserTok (names : List (List Char)) (t : Token) : Tok :=
  ⟨tokenType names (if t.kind = .terminal then t.data else description t.kind), t.data⟩

/-- `ParserI.cpp:96`: the tokens of a text, before the first end of file. -/
def allTokens (g : Grammar) (num : List Char → Bool) : Nat → Lex → List Token
  | 0, _ => []
  | n + 1, s =>
    match getToken g num s with
    | (some t, s) => if t.kind = .eof then [] else t :: allTokens g num n s
    | (none, _) => []

/-- `StandardParser.cpp:112-126` and `ParserI.cpp:142-246`: a new parser for a text and a database, and `Parse`. -/
def parseText {B : Type} (conv : Conv B) (num : List Char → Bool) (cap fuel : Nat) (db : ConfigDb.St (Leaf B))
    (text : List Char) : Res (Bool × Cfg B) :=
  parseStd conv cap fuel db ((allTokens Lexer.standard num (text.length + 1) (.new text)).map (parserTok terminalNames))

end Verif.Config
