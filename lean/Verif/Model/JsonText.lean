import Verif.Model.ConfigText
import Verif.Model.JsonParser
/-!
# Model of the parser of the JSON language, from the text

`BareMetal/L4Configuration/ParserI.cpp:93-138` and `JsonParser.cpp`; the simplification of `Verif.Model.ConfigText`.
-/
namespace Verif.Json
open Verif.Parser (Tok Res)
open Verif.Config (Conv Leaf allTokens parserTok)

/-- `JsonParser.cpp:99-110, 144-154`: the names of the terminals; 0 has none. -/
def terminalNames : List (List Char) :=
  ["not a symbol", "STRING", ":", "(", ")", "[", "]", "{", "}", "NUMBER", "END_OF_SLK_INPUT"].map String.toList

/-- `JsonParser.cpp:117-134` and `ParserI.cpp:142-246`: a new parser for a text and a database, and `Parse`. -/
def parseJsonText {B : Type} (conv : Conv B) (num : List Char → Bool) (cap fuel : Nat) (db : ConfigDb.St (Leaf B))
    (text : List Char) : Res (Bool × JCfg B) :=
  parseJson conv cap fuel db ((allTokens Lexer.json num (text.length + 1) (.new text)).map (parserTok terminalNames))

end Verif.Json
