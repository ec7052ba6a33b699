import Verif.Model.ConfigParser
/-!
# Model of the parser of configurations in the JSON language

`BareMetal/L4Configuration/JsonParser.cpp` (the tables) and the actions of `ConfigurationParserI.cpp` for arrays of
blocks; the other actions are those of `Verif.Model.ConfigParser`, with its simplifications.

Simplifications:
* `vectorStructureIdx`, the second `ConfigurationDatabase` with the counters of the arrays being read, is the model of
  `Verif.Model.ConfigDb` with natural numbers as values (`Write("Idx", 0)` writes an `int32`, `Read` reads a `uint32`);
* `Printf("%s[%d]", ...)` writes the name and the decimal digits of the counter.
-/
namespace Verif.Json
open Verif.Parser Verif.Config
open Verif.ConfigDb (Op Out St Name)

variable {B : Type}

/-- `ConfigurationParserI.h:320-400`: the members, with `vectorStructureIdx`. -/
structure JCfg (B : Type) where
  cfg : Cfg B
  vec : St Nat

/-- `JsonParser.cpp:47-97`. -/
def jsonTables : Tables where
  production :=
    [0, 3, 11, 12, 29, 3, 12, 13, 23, 6, 13, 30, 1, 2, 14, 31, 10, 13, 30, 1, 2, 3, 32, 1, 4, 14, 31,
     5, 13, 33, 1, 2, 19, 5, 13, 34, 1, 2, 16, 2, 13, 21, 2, 14, 15, 2, 14, 17, 2, 14, 18, 3, 15, 35, 22,
     5, 16, 5, 20, 24, 6, 5, 17, 5, 15, 25, 6, 5, 18, 5, 17, 26, 6, 5, 19, 7, 13, 27, 8, 3, 20, 40, 19,
     5, 21, 7, 13, 28, 8, 2, 22, 1, 2, 22, 9, 3, 23, 13, 23, 1, 23, 3, 24, 20, 24, 2, 24, 36, 3, 25, 15, 25,
     2, 25, 37, 3, 26, 17, 26, 2, 26, 38, 3, 27, 13, 27, 2, 27, 39, 3, 28, 13, 28, 1, 28, 0]
  productionRow :=
    [0, 1, 5, 9, 16, 27, 33, 39, 42, 45, 48, 51, 55, 61, 67, 73, 79, 83, 89, 92, 95, 99, 101, 105, 108, 112, 115,
     119, 122, 126, 129, 133, 0]
  parseArray :=
    [0, 0, 8, 20, 0, 0, 33, 11, 24, 20, 8, 28, 21, 25, 30, 11, 24, 28, 29, 1, 30, 31, 2, 32, 18, 1, 23, 22, 2, 7, 26,
     27, 19, 12, 13, 14, 15, 16, 17, 0, 0, 0]
  parseRow := [0, 18, 21, 22, 1, 6, 28, 29, 30, 29, 30, 31, 23, 2, 20, 7, 25, 10, 13, 0]
  conflict := [0, 0, 9, 34, 0, 3, 10, 4, 3, 35, 9, 5, 3, 3, 6, 0, 3]
  conflictRow := [0, 1, 1, 4, 7, 0]
  startSymbol := 11
  endOfInput := 10
  startConflict := 32
  startAction := 29

/-- The answer of a call that must give `true`. -/
def failed {V : Type} : Out V → Bool
  | .flag ok => !ok
  | _ => true

/-- The field of the counters. -/
def idxName : Name := "Idx".toList

/-- `ConfigurationParserI.cpp:514`: `Printf("%s[%d]", name, index)`. -/
def printName (n : Name) (i : Nat) : Name := n ++ '[' :: (Nat.toDigits 10 i ++ [']'])

/-- `ConfigurationParserI.cpp:497-507` `CreateNodeV`. -/
def createNodeV (u : JCfg B) (t : Tok) : Option (JCfg B × Bool) :=
  match ConfigDb.step u.vec (.createRelative t.data) with
  | none => none
  | some (o1, v1) =>
    match ConfigDb.step v1 (.write idxName 0) with
    | none => none
    | some (o2, v2) => some ({ u with vec := v2 }, failed o1 || failed o2)

/-- `ConfigurationParserI.cpp:509-529` `CreateNodeVE`. -/
def createNodeVE (u : JCfg B) : Option (JCfg B × Bool) :=
  match ConfigDb.step u.vec (.read idxName) with
  | none => none
  | some (o1, v1) =>
    let idx := match o1 with
      | .value (some i) => i
      | _ => 0
    let e1 := match o1 with
      | .value (some _) => false
      | _ => true
    match ConfigDb.step v1 .getName with
    | none => none
    | some (o2, v2) =>
      let name := match o2 with
        | .name (some n) => n
        | _ => []
      match call u.cfg (.createRelative (printName name idx)) with
      | none => none
      | some (c, e3) =>
        match ConfigDb.step v2 (.write idxName ((idx + 1) % 2 ^ 32)) with
        | none => none
        | some (o4, v4) => some (⟨c, v4⟩, e1 || e3 || failed o4)

/-- `ConfigurationParserI.cpp:271-276` `EndVectorB`. -/
def endVectorB (u : JCfg B) : Option (JCfg B × Bool) :=
  match ConfigDb.step u.vec .getName with
  | none => none
  | some (o1, v1) =>
    let name := match o1 with
      | .name (some n) => n
      | _ => []
    match ConfigDb.step v1 (.moveToAncestor 1) with
    | none => none
    | some (o2, v2) =>
      if failed o2 then some ({ u with vec := v2 }, false)
      else match ConfigDb.step v2 (.delete name) with
        | none => none
        | some (_, v3) => some ({ u with vec := v3 }, false)

/-- An action of the parser that leaves the counters alone. -/
def onCfg (u : JCfg B) (r : Option (Cfg B × Bool)) : Option (JCfg B × Bool) :=
  r.map fun q => ({ u with cfg := q.1 }, q.2)

/-- `LexicalAnalyzer.cpp:345-349`: the identifier of a token does not depend on the language; `Verif.Model.ConfigParser`
has 8 for that of a number, whose terminal is 9 here. -/
def ident (t : Tok) : Tok := if t.ty = 9 then ⟨8, t.data⟩ else t

/-- `JsonParser.cpp:120-133, 140-142` `Execute`. -/
def jsonExec (conv : Conv B) : Exec (JCfg B) := fun n t u =>
  match n with
  | 1 => onCfg u (endAll u.cfg)
  | 2 => some ({ u with cfg := getNodeName u.cfg t }, false)
  | 3 => onCfg u (addLeaf u.cfg)
  | 4 => some ({ u with cfg := getTypeCast u.cfg t }, false)
  | 5 => onCfg u (createNode u.cfg t)
  | 6 => createNodeV u t
  | 7 => onCfg u (some (addScalar conv u.cfg (ident t)))
  | 8 => endVectorB u
  | 9 => onCfg u (some (endVector u.cfg))
  | 10 => some ({ u with cfg := endMatrix u.cfg }, false)
  | 11 => onCfg u (blockEnd u.cfg)
  | 12 => createNodeVE u
  | _ => none

/-- `JsonParser::Parse` on the tokens of a text, into the database `db`. -/
def parseJson (conv : Conv B) (cap fuel : Nat) (db : St (Leaf B)) (input : List Tok) : Res (Bool × JCfg B) :=
  parse jsonTables (jsonExec conv) cap fuel ⟨Cfg.new db, ConfigDb.init⟩ input

end Verif.Json
