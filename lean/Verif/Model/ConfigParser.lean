import Verif.Model.ParserI
import Verif.Model.ConfigDb
/-!
# Model of the parser of configurations

`BareMetal/L4Configuration/ConfigurationParserI.cpp` (the actions), `AnyTypeCreator.cpp` (the values being gathered) and
`StandardParser.cpp` (the tables of the standard language).

Simplifications:
* the output is a `ConfigurationDatabase` (`Verif.Model.ConfigDb`);
* the conversion of a text to a number (`TypeConvert`) is a parameter; sizes do not wrap around;
* mathematical expressions (`GetExprCast`, `ExpandExpression`) are not modelled: the action sets `isError`, so that no
  theorem speaks of them;
* the blocks and vectors of structures of the JSON language are not modelled here.
-/
namespace Verif.Config
open Verif.Parser
open Verif.ConfigDb (Op Out St Name)

/-- `L1Portability/TypeDescriptor.cpp:55-71`: names of the table of basic types. -/
def typeNames : List (List Char) :=
  ["string".toList, "int8".toList, "int16".toList, "int32".toList, "int64".toList, "uint8".toList, "uint16".toList,
   "uint32".toList, "uint64".toList, "bool".toList, "float32".toList, "float64".toList, "char8".toList, "void".toList]

/-- `AnyTypeCreator.cpp:122-138`: index of a type; 0 (string) if there is none with this name. -/
def typeIndex (name : List Char) : Nat := (typeNames.findIdx? (· = name)).getD 0

/-- An element: a string or a number. -/
inductive Val (B : Type) where
  | text (s : List Char)
  | num (b : B)
deriving DecidableEq, Repr

/-- The value of a leaf (`AnyType`): index of the type, number of dimensions, columns, rows, elements. -/
structure Leaf (B : Type) where
  ty : Nat
  dims : Nat
  cols : Nat
  rows : Nat
  data : List (Val B)
deriving DecidableEq, Repr

/-- `TypeConvert` of a text to the type with the given index. -/
abbrev Conv (B : Type) := Nat → List Char → Option B

/-- `ConfigurationParserI.h:320-400`: the members, with `memory` (`AnyTypeCreator.h:110-130`; `none`: no list yet). -/
structure Cfg (B : Type) where
  db : St (Leaf B)
  nodeName : List Char
  typeName : List Char
  mem : Option (Nat × List (Val B))
  cols : Nat
  firstCols : Nat
  rows : Nat
  tokenType : Nat
  dims : Nat

variable {B : Type}

/-- `ConfigurationParserI.cpp:90-107`: constructor. -/
def Cfg.new (db : St (Leaf B)) : Cfg B := ⟨db, [], "string".toList, none, 0, 0, 0, 0, 0⟩

/-- `AnyTypeCreator.cpp:110-255` `Add`: the new list; `none` if the conversion failed.  A type that differs from that of
the list is reported, and the one of the list is used. -/
def memAdd (conv : Conv B) (mem : Option (Nat × List (Val B))) (type data : List Char) :
    Option (Nat × List (Val B)) :=
  let ti := match mem with
    | some m => m.1
    | none => typeIndex type
  let old := match mem with
    | some m => m.2
    | none => []
  if ti = 0 then some (ti, old ++ [.text data])
  else if ti ≤ 8 ∨ ti = 10 ∨ ti = 11 then (conv ti data).map fun b => (ti, old ++ [.num b])
  else none

/-- `AnyTypeCreator.cpp:72-106` `Create`: `none` is the void `AnyType`. -/
def memCreate (mem : Option (Nat × List (Val B))) (dims cols rows : Nat) : Option (Leaf B) :=
  match mem with
  | none => none
  | some (ti, xs) =>
    if cols * rows * 1 = xs.length then
      let dimCheck := if rows > 1 then 2 else if cols > 1 then 1 else 0
      if dims ≥ dimCheck ∧ dims < 3 then some ⟨ti, dims, cols, rows, xs⟩ else none
    else none

/-- A call on the database that gives a flag: the action sets `isError` if it is false. -/
def call (c : Cfg B) (op : Op (Leaf B)) : Option (Cfg B × Bool) :=
  match ConfigDb.step c.db op with
  | none => none
  | some (o, db) => some ({ c with db := db }, match o with
    | .flag ok => !ok
    | _ => true)

/-- `ConfigurationParserI.cpp:113-115` `GetTypeCast`. -/
def getTypeCast (c : Cfg B) (t : Tok) : Cfg B := { c with typeName := t.data }

/-- `ConfigurationParserI.cpp:165-170` `BlockEnd`. -/
def blockEnd (c : Cfg B) : Option (Cfg B × Bool) := call c (.moveToAncestor 1)

/-- `ConfigurationParserI.cpp:172-177` `CreateNode`. -/
def createNode (c : Cfg B) (t : Tok) : Option (Cfg B × Bool) := call c (.createRelative t.data)

/-- `ConfigurationParserI.cpp:217-224`: the end of `AddLeaf`. -/
def reset (c : Cfg B) : Cfg B :=
  { c with typeName := "string".toList, cols := 0, firstCols := 0, rows := 0, tokenType := 0, dims := 0, mem := none }

/-- `ConfigurationParserI.cpp:179-225` `AddLeaf`. -/
def addLeaf (c : Cfg B) : Option (Cfg B × Bool) :=
  let rows := if c.dims = 1 ∨ c.dims = 0 then 1 else c.rows
  let cols := if c.dims = 0 then c.firstCols else c.cols
  match memCreate c.mem c.dims cols rows with
  | none => some (reset c, true)
  | some v =>
    match call c (.write c.nodeName v) with
    | none => none
    | some (c', err) => some (reset c', err)

/-- `ConfigurationParserI.cpp:227-229` `GetNodeName`. -/
def getNodeName (c : Cfg B) (t : Tok) : Cfg B := { c with nodeName := t.data }

/-- `ConfigurationParserI.cpp:231-252` `AddScalar`.  The identifiers of the tokens are not zero, and differ exactly when
the numbers of the terminals (string, number) do. -/
def addScalar (conv : Conv B) (c : Cfg B) (t : Tok) : Cfg B × Bool :=
  let tt := if c.tokenType = 0 then t.ty else c.tokenType
  if tt = t.ty then
    match memAdd conv c.mem c.typeName t.data with
    | some m => ({ c with tokenType := tt, mem := some m, firstCols := c.firstCols + 1 }, false)
    | none => ({ c with tokenType := tt }, true)
  else ({ c with tokenType := tt }, true)

/-- `ConfigurationParserI.cpp:254-269` `EndVector`. -/
def endVector (c : Cfg B) : Cfg B × Bool :=
  let err := if c.cols = 0 then false else decide (c.cols ≠ c.firstCols)
  let cols := if c.cols = 0 then c.firstCols else c.cols
  ({ c with cols := cols, firstCols := 0, rows := c.rows + 1, dims := if c.dims = 0 then 1 else c.dims }, err)

/-- `ConfigurationParserI.cpp:278-280` `EndMatrix`. -/
def endMatrix (c : Cfg B) : Cfg B := { c with dims := 2 }

/-- `ConfigurationParserI.cpp:282-323` `End`, without expressions to compute. -/
def endAll (c : Cfg B) : Option (Cfg B × Bool) := call c .moveToRoot

/-- `StandardParser.cpp:47-54`. -/
def stdTables : Tables where
  production :=
    [0, 3, 10, 11, 23, 3, 11, 12, 19, 6, 12, 24, 1, 2, 13, 25, 10, 12, 24, 1, 2, 3, 26, 1, 4, 13, 25,
     11, 12, 24, 1, 2, 3, 27, 1, 5, 14, 4, 25, 5, 12, 28, 1, 2, 17,
     2, 13, 14, 2, 13, 15, 2, 13, 16, 3, 14, 29, 18, 5, 15, 6, 14, 20, 7,
     5, 16, 6, 15, 21, 7, 5, 17, 6, 12, 22, 7, 2, 18, 1, 2, 18, 8,
     3, 19, 12, 19, 1, 19, 3, 20, 14, 20, 2, 20, 30, 3, 21, 15, 21,
     2, 21, 31, 3, 22, 12, 22, 2, 22, 32, 0]
  productionRow :=
    [0, 1, 5, 9, 16, 27, 39, 45, 48, 51, 54, 58, 64, 70, 76, 79, 82, 86, 88, 92, 95, 99, 102, 106, 0]
  parseArray :=
    [0, 0, 7, 1, 18, 10, 14, 25, 16, 7, 19, 18, 10, 15, 20, 21, 17, 22, 2, 24, 11, 12, 13, 23, 0, 0, 0, 0]
  parseRow := [0, 2, 17, 18, 1, 4, 14, 15, 16, 5, 7, 3, 8, 16, 0]
  conflict :=
    [0, 0, 8, 26, 29, 0, 3, 9, 27, 8, 0, 28, 0, 3, 30, 4, 5, 0, 0, 3, 0, 3, 3, 6, 0, 0, 0, 0, 3, 3]
  conflictRow := [0, 1, 1, 5, 3, 13, 11, 21, 0]
  startSymbol := 10
  endOfInput := 9
  startConflict := 24
  startAction := 23

/-- `StandardParser.cpp:111-121, 128-130` `Execute`. -/
def stdExec (conv : Conv B) : Exec (Cfg B) := fun n t c =>
  match n with
  | 1 => endAll c
  | 2 => some (getNodeName c t, false)
  | 3 => addLeaf c
  | 4 => some (getTypeCast c t, false)
  | 5 => some (c, true)
  | 6 => createNode c t
  | 7 => some (addScalar conv c t)
  | 8 => some (endVector c)
  | 9 => some (endMatrix c, false)
  | 10 => blockEnd c
  | _ => none

/-- `StandardParser::Parse` on the tokens of a text, into the database `db`. -/
def parseStd (conv : Conv B) (cap fuel : Nat) (db : St (Leaf B)) (input : List Tok) : Res (Bool × Cfg B) :=
  parse stdTables (stdExec conv) cap fuel (Cfg.new db) input

end Verif.Config
