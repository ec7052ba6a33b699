import Verif.Model.ConfigText
/-!
# Model of the parser of configurations in the XML language

`BareMetal/L4Configuration/XMLParser.cpp` (the tables); the actions are those of `Verif.Model.ConfigParser`, with its
simplifications.
-/
namespace Verif.Xml
open Verif.Parser Verif.Config
open Verif.ConfigDb (St)

variable {B : Type}

/-- `XMLParser.cpp:44-83`. -/
def xmlTables : Tables where
  production :=
    [0, 3, 11, 12, 24, 3, 12, 13, 20, 11, 13, 1, 25, 2, 3, 14, 1, 4, 2, 3, 26,
     15, 13, 1, 25, 2, 3, 5, 27, 2, 6, 14, 1, 4, 2, 3, 26, 10, 13, 1, 28, 2, 3, 18, 1, 4, 2, 3,
     2, 14, 15, 2, 14, 16, 2, 14, 17, 3, 15, 29, 19, 5, 16, 7, 15, 21, 8, 5, 17, 7, 16, 22, 8, 3, 18, 13, 23,
     2, 19, 2, 2, 19, 9, 3, 20, 13, 20, 1, 20, 3, 21, 15, 21, 2, 21, 30, 3, 22, 16, 22, 2, 22, 31,
     3, 23, 13, 23, 2, 23, 32, 0]
  productionRow :=
    [0, 1, 5, 9, 21, 37, 48, 51, 54, 57, 61, 67, 73, 77, 80, 83, 87, 89, 93, 96, 100, 103, 107, 0]
  parseArray :=
    [0, 0, 1, 6, 2, 17, 9, 13, 24, 15, 6, 18, 17, 9, 14, 19, 20, 23, 16, 10, 11, 12, 25, 0, 0, 0, 0, 0, 0, 0, 0, 0]
  parseRow := [0, 1, 3, 16, 1, 4, 12, 13, 20, 5, 8, 3, 8, 21, 0]
  conflict := [0, 0, 0, 26, 7, 21, 27, 22, 0, 8, 0, 7, 5, 3, 0, 0, 4, 0, 3, 0, 3]
  conflictRow := [0, 1, 2, 3, 3, 11, 0]
  startSymbol := 11
  endOfInput := 10
  startConflict := 23
  startAction := 24

/-- `LexicalAnalyzer.cpp:345-349`: the identifier of a token does not depend on the language; `Verif.Model.ConfigParser`
has 1 for that of a string and 8 for that of a number, whose terminals are 2 and 9 here. -/
def ident (t : Tok) : Tok := if t.ty = 9 then ⟨8, t.data⟩ else if t.ty = 2 then ⟨1, t.data⟩ else t

/-- `XMLParser.cpp:110-119, 126-128` `Execute`. -/
def xmlExec (conv : Conv B) : Exec (Cfg B) := fun n t c =>
  match n with
  | 1 => endAll c
  | 2 => some (getNodeName c t, false)
  | 3 => addLeaf c
  | 4 => some (getTypeCast c t, false)
  | 5 => createNode c t
  | 6 => some (addScalar conv c (ident t))
  | 7 => some (endVector c)
  | 8 => some (endMatrix c, false)
  | 9 => blockEnd c
  | _ => none

/-- `XMLParser::Parse` on the tokens of a text, into the database `db`. -/
def parseXml (conv : Conv B) (cap fuel : Nat) (db : St (Leaf B)) (input : List Tok) : Res (Bool × Cfg B) :=
  parse xmlTables (xmlExec conv) cap fuel (Cfg.new db) input

/-- `GrammarInfo.h:149`. -/
def xmlGrammar : Lexer.Grammar where
  seps := "\n\r\t, ".toList
  oneLine := []
  multiBegin := "<!--".toList
  multiEnd := "-->".toList
  keywords := []
  terms := "<>{}/()<>".toList

/-- `XMLParser.cpp:86-88, 130-140`: the names of the terminals; 0 has none. -/
def terminalNames : List (List Char) :=
  ["not a symbol", "<", "STRING", ">", "/", "(", ")", "{", "}", "NUMBER", "END_OF_SLK_INPUT"].map String.toList

/-- `XMLParser.cpp:106-120` and `ParserI.cpp:142-246`: a new parser for a text and a database, and `Parse`. -/
def parseXmlText (conv : Conv B) (num : List Char → Bool) (cap fuel : Nat) (db : St (Leaf B)) (text : List Char) :
    Res (Bool × Cfg B) :=
  parseXml conv cap fuel db
    ((allTokens xmlGrammar num (text.length + 1) (.new text)).map (parserTok terminalNames))

end Verif.Xml
