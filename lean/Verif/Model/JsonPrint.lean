import Verif.Model.ConfigPrint
import Verif.Model.JsonParser
/-!
# Model of the printers of structured data, and of the one of the JSON language

`BareMetal/L3Streams/PrinterI.cpp` (`PrintStructuredDataI`, with and without the arrays of nodes collapsed),
`JsonPrinter.cpp`, and the JSON separators of `IOBufferJsonPrint.cpp` with the printing of vectors and matrices of
`IOBuffer.cpp`.

Simplifications: those of `Verif.Model.ConfigPrint`; a name is printed as it is (`Printf` with `%s`, and the names have
no zeros).
-/
namespace Verif.Json
open Verif.Config (Leaf Val printScalar)
open Verif.ConfigDb (Op Out St Name step)

variable {B : Type} (pr : Nat → B → List Char)

/-! ## Values -/

/-- `IOBuffer.cpp:1402-1435`: the loop of `PrintToStreamVector` with `PrintJsonScalarSeparator`
(`IOBufferJsonPrint.cpp:65-67`), for the `k` elements from `off`; `none` if there is no such element. -/
def jsonElements (v : Leaf B) : (off k : Nat) → Option (Bool × List Char)
  | _, 0 => some (true, [])
  | off, k + 1 =>
    match v.data[off]? with
    | none => none
    | some x =>
      match printScalar pr v.ty x with
      | none => none
      | some (false, t) => some (false, t)
      | some (true, t) =>
        (jsonElements v (off + 1) k).map fun r => (r.1, t ++ (if k = 0 then [] else [',']) ++ [' '] ++ r.2)

/-- `IOBuffer.cpp:1387-1444` `PrintToStreamVector`, `IOBufferJsonPrint.cpp:97-108`. -/
def jsonVector (v : Leaf B) (off k : Nat) : Option (Bool × List Char) :=
  (jsonElements pr v off k).map fun r => if r.1 then (true, '[' :: ' ' :: (r.2 ++ [']', ' '])) else (false, '[' :: ' ' :: r.2)

/-- `IOBuffer.cpp:1475-1506`: the loop of `PrintToStreamMatrix`, with `PrintJsonVectorSeparator`
(`IOBufferJsonPrint.cpp:73-75`), for `k` rows from the row `i`. -/
def jsonRows (v : Leaf B) : (i k : Nat) → Option (Bool × List Char)
  | _, 0 => some (true, [])
  | i, k + 1 =>
    match jsonVector pr v (i * v.cols) v.cols with
    | none => none
    | some (false, t) => some (false, t)
    | some (true, t) => (jsonRows v (i + 1) k).map fun r => (r.1, t ++ (if k = 0 then [] else [',']) ++ r.2)

/-- `IOBuffer.cpp:1453-1514` `PrintToStreamMatrix`, `IOBufferJsonPrint.cpp:49-59`. -/
def jsonMatrix (v : Leaf B) : Option (Bool × List Char) :=
  (jsonRows pr v 0 v.rows).map fun r => if r.1 then (true, '[' :: ' ' :: (r.2 ++ [']', ' '])) else (false, '[' :: ' ' :: r.2)

/-- `JsonPrinter.cpp:106-124` `PrintVariable` and `IOBuffer.cpp:1522-1548` `PrintToStream`. Strings are printed with
`%#J!`, between quotes, and numbers with `%J!`. -/
def jsonValue (v : Leaf B) : Option (Bool × List Char) :=
  if v.dims = 2 then jsonMatrix pr v
  else if v.dims = 1 then jsonVector pr v 0 v.cols
  else if v.dims = 0 then
    match v.data[0]? with
    | none => none
    | some x => printScalar pr v.ty x
  else some (false, [])

/-! ## Trees -/

/-- What a printer (`PrinterI.h`) writes; `none` for what it cannot (`PrinterI.cpp:100-118`, the functions that return
`false`). -/
structure Printer (B : Type) where
  start : List Char
  stop : List Char
  blockSep : List Char
  varSep : List Char
  openBlock : Name → List Char
  closeBlock : Name → List Char
  openVar : Name → List Char
  closeVar : Name → List Char
  openList : Option (Name → List Char)
  closeList : Option (Name → List Char)
  openItem : Option (Name → List Char)
  closeItem : Option (Name → List Char)
  value : Leaf B → Option (Bool × List Char)

/-- `JsonPrinter.cpp:54-154`. -/
def jsonPrinter : Printer B where
  start := ['{']
  stop := ['}']
  blockSep := [',']
  varSep := [',']
  openBlock n := '"' :: (n ++ "\": {".toList)
  closeBlock _ := ['}']
  openVar n := '"' :: (n ++ "\": ".toList)
  closeVar _ := []
  openList := some fun n => '"' :: (n ++ "\" : [".toList)
  closeList := some fun _ => [']']
  openItem := some fun _ => ['{']
  closeItem := some fun _ => ['}']
  value := jsonValue pr

/-- `StandardPrinter.cpp`: the printer of the standard language, which has no lists of blocks. -/
def stdPrinter : Printer B where
  start := []
  stop := []
  blockSep := []
  varSep := []
  openBlock n := n ++ " = {".toList
  closeBlock _ := ['}']
  openVar n := n ++ " =".toList
  closeVar _ := []
  openList := none
  closeList := none
  openItem := none
  closeItem := none
  value := Config.printValue pr

/-- `XMLPrinter.cpp:54-114`: the printer of the XML language, which has no lists of blocks. `PrintVariable` has the format
`%#X!`: strings have quotes, and the separators of vectors and matrices (`IOBufferXMLPrint.cpp:49-94`) are those of JSON. -/
def xmlPrinter : Printer B where
  start := []
  stop := []
  blockSep := []
  varSep := []
  openBlock n := '<' :: (n ++ ['>'])
  closeBlock n := '<' :: '/' :: (n ++ ['>'])
  openVar n := '<' :: (n ++ ['>'])
  closeVar n := '<' :: '/' :: (n ++ ['>'])
  openList := none
  closeList := none
  openItem := none
  closeItem := none
  value := jsonValue pr

/-- `PrinterI.cpp:39-42` `PrinterIIsNodeAnArray`. -/
def isListItem (n : Name) : Bool := n.contains '['

/-- `PrinterI.cpp:44-52` `PrinterIGetNodeArrayName`: the answer and the name. -/
def listNameOf (n : Name) : Bool × Name :=
  let r := Token.getToken ['['] none n
  (r.ok, r.out)

/-- `PrinterI.cpp:56-69`: the loop of `PrinterIGetNodeArraySize`, with `size` as counter, and the database after it. -/
def listSizeLoop (n : Name) : (size : Nat) → St (Leaf B) → Option (Nat × St (Leaf B))
  | 0, s => some (0, s)
  | size + 1, s =>
    match step s (.moveRelative (printName n (size + 1))) with
    | none => none
    | some (.flag true, s) => (step s (.moveToAncestor 1)).map fun r => (size + 1, r.2)
    | some (_, s) => listSizeLoop n size s

/-- `PrinterI.cpp:54-71` `PrinterIGetNodeArraySize`. -/
def listSize (n : Name) (s : St (Leaf B)) : Option (Nat × St (Leaf B)) :=
  match step s .getNumberOfChildren with
  | some (.size k, s) => (listSizeLoop n k s).map fun r => ((r.1 + 1) % 2 ^ 32, r.2)
  | _ => none

/-- `PrinterI.cpp:127-134`: the variables of `PrintStructuredDataI`, with the database and what has been written. -/
structure Loop (B : Type) where
  db : St (Leaf B)
  out : List Char
  ok : Bool
  afterBlock : Bool
  afterVar : Bool
  listOpen : Bool
  left : Nat
  listName : Name

/-- `PrinterI.cpp:123-134`. -/
def Loop.new (db : St (Leaf B)) : Loop B := ⟨db, [], true, false, false, false, 0, []⟩

/-- A call of the printer: its answer is the new `ok`. -/
def Loop.put (l : Loop B) (t : Option (List Char)) : Loop B :=
  match t with
  | some t => { l with out := l.out ++ t, ok := true }
  | none => { l with ok := false }

/-- `PrinterI.cpp:137-145`. -/
def separate (p : Printer B) (l : Loop B) : Loop B :=
  if l.afterBlock then l.put (some p.blockSep)
  else if l.afterVar then l.put (some p.varSep)
  else l

/-- The answer of a call. -/
def answered : Out (Leaf B) → Bool
  | .flag b => b
  | _ => false

/-- A call of the database that answers true or false: its answer is the new `ok`. -/
def Loop.move (l : Loop B) (op : Op (Leaf B)) : Option (Loop B) :=
  (step l.db op).map fun r => { l with db := r.2, ok := answered r.1 }

/-- `PrinterI.cpp:155-163`: a node that is the first of a list. -/
def countList (name : Name) (l : Loop B) : Option (Loop B) :=
  if isListItem name then
    let r := listNameOf name
    let l := { l with listName := r.2, ok := r.1 }
    if l.ok then
      match l.move (.moveToAncestor 1) with
      | none => none
      | some l =>
        if l.ok then (listSize l.listName l.db).map fun q => { l with left := q.1, db := q.2 }
        else some l
    else some l
  else some l

/-- `PrinterI.cpp:164-191`. -/
def openFirst (p : Printer B) (name : Name) (l : Loop B) : Option (Loop B) :=
  if l.ok then
    if l.left > 0 then
      match l.move (.moveRelative (printName l.listName 0)) with
      | none => none
      | some l =>
        let l := if l.ok then { l.put (p.openList.map (· l.listName)) with listOpen := true } else l
        let l := if l.ok then l.put (p.openItem.map (· name)) else l
        some (if l.ok then { l with left := l.left - 1 } else l)
    else some (l.put (some (p.openBlock name)))
  else some l

/-- `PrinterI.cpp:146-198`: from the move into the node until its children are printed. -/
def openNode (p : Printer B) (collapse : Bool) (name : Name) (l : Loop B) : Option (Loop B) :=
  let l := { l with afterBlock := true, afterVar := false }
  if collapse then
    if l.left > 0 then
      let l := l.put (p.openItem.map (· l.listName))
      some { l with left := l.left - 1 }
    else (countList name l).bind (openFirst p name)
  else some (if l.ok then l.put (some (p.openBlock name)) else l)

/-- `PrinterI.cpp:202-221`: from the end of the children of the node on. -/
def closeNode (p : Printer B) (name : Name) (l : Loop B) : Option (Loop B) :=
  let l := if l.ok then l.put (if l.listOpen then p.closeItem.map (· name) else some (p.closeBlock name)) else l
  let l := if l.ok ∧ l.listOpen ∧ l.left = 0 then { l.put (p.closeList.map (· name)) with listOpen := false } else l
  if l.ok then l.move (.moveToAncestor 1) else some l

/-- `PrinterI.cpp:222-236`: a value; `GetType` of what is not there is an empty `AnyType`, which is not printed. -/
def printVar (p : Printer B) (name : Name) (l : Loop B) : Option (Loop B) :=
  let l := { l with afterBlock := false, afterVar := true }
  if l.ok then
    match step l.db (.read name) with
    | some (.value (some v), db) =>
      match p.value v with
      | none => none
      | some (true, t) => some { l with db := db, out := l.out ++ p.openVar name ++ t ++ p.closeVar name, ok := true }
      | some (false, t) => some { l with db := db, out := l.out ++ p.openVar name ++ t, ok := false }
    | some (_, db) => some { l with db := db, out := l.out ++ p.openVar name, ok := false }
    | none => none
  else some l

/-- `PrinterI.cpp:135-236`: the loop of `PrintStructuredDataI`, from the child `i`; `none`: a null pointer, or no more
fuel. -/
def printLoop (p : Printer B) (collapse : Bool) : (fuel i : Nat) → Loop B → Option (Loop B)
  | 0, _, _ => none
  | fuel + 1, i, l =>
    match step l.db .getNumberOfChildren with
    | some (.size n, db) =>
      if i < n then
        match step db (.getChildName i) with
        | some (.name (some name), db) =>
          match step db (.moveRelative name) with
          | some (.flag true, db) =>
            match openNode p collapse name { separate p l with db := db } with
            | none => none
            | some l =>
              match (if l.ok then (printLoop p collapse fuel 0 (.new l.db)).map fun m =>
                  { l with db := m.db, out := l.out ++ m.out, ok := m.ok } else some l) with
              | none => none
              | some l =>
                match closeNode p name l with
                | none => none
                | some l => printLoop p collapse fuel (i + 1) l
          | some (_, db) =>
            match printVar p name { separate p l with db := db } with
            | none => none
            | some l => printLoop p collapse fuel (i + 1) l
          | none => none
        | _ => none
      else some { l with db := db }
    | _ => none

/-- `PrinterI.cpp:122-245` `PrintStructuredDataI(sdi, collapseArraysOfNodes)`: the answer, what is written, and the
database. -/
def printStructured (p : Printer B) (collapse : Bool) (fuel : Nat) (s : St (Leaf B)) :
    Option (Bool × List Char × St (Leaf B)) :=
  (printLoop p collapse fuel 0 (.new s)).map fun l =>
    (l.ok, p.start ++ l.out ++ (if l.ok then p.stop else []), l.db)

end Verif.Json
