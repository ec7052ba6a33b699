import Verif.Model.Token
import Verif.Model.StructDecl
/-!
# Model of the registration of types from data

`Source/Core/BareMetal/L4Configuration/IntrospectionStructure.cpp:318-498` `RegisterStructuredDataI`, up to the declaration of each
type, which is `Initialise` of `Verif.Model.StructDecl`.  Names have no dot (`ConfigurationDatabase::CreateRelative` would make
nodes of their parts).
-/
namespace Verif.StructReg

abbrev Text := List Char

/-- The children of a `StructuredDataI`, in order: values (with the name of their type and the number of elements in each of their
dimensions), the value named as the identifier of types, nodes (with the text that `Read(typeIdentifier)` gives, empty if none). -/
inductive Kids
  | nil
  | value (name type : Text) (dims : List Nat) (rest : Kids)
  | ident (name : Text) (rest : Kids)
  | node (name typeId : Text) (kids rest : Kids)
deriving DecidableEq, Repr

/-- A member of a type: `Type` and `NumberOfElements` of a child of the type in `cdbTypes`. -/
structure Entry where
  name : Text
  type : Text
  elems : List Nat
deriving DecidableEq, Repr

/-- `cdbTypes`: the types with their members, in the order of their creation. -/
abbrev Table := List (Text × List Entry)

def bytes (t : Text) : List UInt8 := t.map fun c => UInt8.ofNat c.toNat

/-- `IntrospectionStructure.cpp:371-379, 395-398`: `GetToken(token, "[", ignore)`; the name without what follows the bracket. -/
def baseOf (name : Text) : Text :=
  let r := Token.getToken ['['] none name
  if r.ok then r.out else name

/-- `IntrospectionStructure.cpp:363-380, 431-438`: the name of the type of a node. -/
def typeName (name typeId : Text) : Text := if typeId = [] then "AutoGenerated".toList ++ baseOf name else typeId

/-- The name of a child. -/
def scanOne (base name : Text) : Option (Option Nat) :=
  let r := Token.getToken ['['] none name
  if r.ok && r.out = base then
    let q := Token.getToken [']'] none r.rest
    if q.ok then (StructDecl.readNat (bytes q.out)).map some else none
  else some none

/-- `IntrospectionStructure.cpp:402-421`: the loop over the next children while they are of the same array; the number of elements
and the number of children that are passed over (line 420 passes over the one that ends the loop, too).  `none` if it fails. -/
def scan (base : Text) : Kids → Nat → Option (Nat × Nat)
  | .nil, c => some (c, 0)
  | .value n _ _ rest, c | .ident n rest, c | .node n _ _ rest, c =>
    match scanOne base n with
    | none => none
    | some none => some (c, 1)
    | some (some k) => (scan base rest ((k + 1) % 4294967296)).map fun r => (r.1, r.2 + 1)

/-- `IntrospectionStructure.cpp:395-429`: the number of elements of a member, and how many of the next children are passed over. -/
def elements (name : Text) (rest : Kids) : Option (Nat × Nat) :=
  if (Token.getToken ['['] none name).ok then scan (baseOf name) rest 1 else some (1, 0)

/-- `CreateAbsolute(typeName)`: fails if there is a type with this name. -/
def create (tn : Text) (tbl : Table) : Option Table := if tn ∈ tbl.map (·.1) then none else some (tbl ++ [(tn, [])])

/-- `CreateRelative(name)`, `Write("Type")`, `Write("NumberOfElements")` at the type `tn`: fails if it has a member with this name.
(Lines 470-491: for a value the failure is overlooked and its type is written in the type itself; not modelled, also a failure.) -/
def addEntry (tn : Text) (e : Entry) : Table → Option Table
  | [] => none
  | (n, es) :: tbl =>
    if n = tn then if e.name ∈ es.map (·.name) then none else some ((n, es ++ [e]) :: tbl)
    else (addEntry tn e tbl).map fun t => (n, es) :: t

/-- `IntrospectionStructure.cpp:472-489`: the number of elements of a value. -/
def valueElems (dims : List Nat) : List Nat := if dims = [] then [1] else dims

/-- `IntrospectionStructure.cpp:385-495`: the loop over the children of a node of type `tn`; the next `skip` children are passed
over.  In the recursion the type of a node is created first (lines 381-382). -/
def regKids (tn : Text) : Kids → (skip : Nat) → Table → Option Table
  | .nil, _, tbl => some tbl
  | .value _ _ _ rest, s + 1, tbl => regKids tn rest s tbl
  | .ident _ rest, s + 1, tbl => regKids tn rest s tbl
  | .node _ _ _ rest, s + 1, tbl => regKids tn rest s tbl
  | .value name type dims rest, 0, tbl =>
    match addEntry tn ⟨name, type, valueElems dims⟩ tbl with
    | none => none
    | some tbl => regKids tn rest 0 tbl
  | .ident _ rest, 0, tbl => regKids tn rest 0 tbl
  | .node name typeId kids rest, 0, tbl =>
    match elements name rest with
    | none => none
    | some (count, skip) =>
      match create (typeName name typeId) tbl with
      | none => none
      | some tbl =>
        match regKids (typeName name typeId) kids 0 tbl with
        | none => none
        | some tbl =>
          match addEntry tn ⟨baseOf name, typeName name typeId, [count]⟩ tbl with
          | none => none
          | some tbl => regKids tn rest skip tbl

/-- `IntrospectionStructure.cpp:354-498` `RegisterStructuredDataIPriv` at the node where it begins; `name` is none at a root. -/
def register (name : Option Text) (typeId : Text) (kids : Kids) : Option Table :=
  let tn := if typeId = [] then
      (match name with
        | none => "AutoGeneratedRoot".toList
        | some n => "AutoGenerated".toList ++ baseOf n)
    else typeId
  regKids tn kids 0 [(tn, [])]

/-- `IntrospectionStructure.cpp:330-350`: the types are declared from the last to the first. -/
def declared (tbl : Table) : List Text := (tbl.map (·.1)).reverse

end Verif.StructReg
