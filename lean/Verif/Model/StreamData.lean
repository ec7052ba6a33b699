import Verif.Model.JsonPrint
import Verif.Model.RefContainer
/-!
# Model of `BareMetal/L3Streams/StreamStructuredData.h`

A configuration that is written on a stream while it is built. The names of the children of a node are distinct
(`CreateAbsolute` searches before it creates), so that a node is known by the names on the way to it. `Find` with a path
gives the nodes on the way, or nothing if one is missing (C07), and with a reference and the mode `PATH` the way to it
(C61); the address is taken apart by `RefC.setAddress`. The stream and the printer accept everything, except values that
cannot be printed. What is written is kept as a list of the calls of the printer (`Ev`); `text` gives the characters.

Not modelled: `AddToCurrentNode` and `MoveToChild` (all children that exist after successful calls are on the way to the
current node, or closed), `Flush`.
-/
namespace Verif.StreamData
open Verif.Config (Leaf)
open Verif.ConfigDb (Name)
open Verif.Json (Printer)
open Verif.Token (getToken)

/-- What is written: the calls of the printer, and the new lines (`stream->Printf("%s", "\n\r")`). -/
inductive Ev where
  | line
  | varSep
  | blockSep
  | openBlock (n : Name)
  | closeBlock (n : Name)
  | openVar (n : Name)
  | value (t : List Char)
  | closeVar (n : Name)
deriving DecidableEq, Repr

variable {B : Type}

/-- `PrinterI.h:60-180`: the characters. -/
def Ev.text (p : Printer B) : Ev → List Char
  | .line => ['\n', '\r']
  | .varSep => p.varSep
  | .blockSep => p.blockSep
  | .openBlock n => p.openBlock n
  | .closeBlock n => p.closeBlock n
  | .openVar n => p.openVar n
  | .value t => t
  | .closeVar n => p.closeVar n

/-- `StreamStructuredData.h:55-92` `StreamStructuredDataNodeDes`: a node, with the names of its children. -/
structure Node where
  kids : List Name
  closed : Bool
  vars : Nat
  sepBlock : Bool
  sepWrite : Bool

/-- `StreamStructuredData.cpp:41-46`: a new node. -/
def Node.new : Node := ⟨[], false, 0, false, false⟩

/-- `StreamStructuredData.h:222-251`: the tree, the way to the current node, `currentPath`, `blockCloseState`, and what
has been written. -/
structure St where
  node : List Name → Node
  cur : List Name
  path : List Char
  blockClosed : Bool
  out : List Ev

/-- `StreamStructuredData.h:262-270` constructor. -/
def init : St := ⟨fun _ => .new, [], [], false, []⟩

/-- Another value of a node. -/
def St.set (s : St) (w : List Name) (n : Node) : St := { s with node := fun v => if v = w then n else s.node v }

/-- A call of the printer. -/
def St.put (s : St) (e : List Ev) : St := { s with out := s.out ++ e }

/-- `StreamStructuredData.h:302-335` `Write`. -/
def write (p : Printer B) (name : Name) (v : Leaf B) (s : St) : Option (Bool × St) :=
  let n := s.node s.cur
  let s := if n.vars > 0 then s.put [.varSep] else s
  let n := if n.vars > 0 then { n with sepWrite := false } else n
  let s := if n.sepWrite then s.put [.blockSep] else s
  let n := if n.sepWrite then { n with sepWrite := false } else n
  let n := { n with sepBlock := true }
  let s := s.put [.line, .openVar name]
  match p.value v with
  | none => none
  | some (false, t) => some (false, (s.put [.value t]).set s.cur n)
  | some (true, t) =>
    some (true, (s.put [.value t, .closeVar name]).set s.cur { n with vars := (n.vars + 1) % 2 ^ 32 })

/-- `StreamStructuredData.h:367-373`, `416-424`, `489-501`: the nodes of the way `w` with more than `k` names are closed,
the last one first. -/
def closeDown (k : Nat) : (m : Nat) → List Name → St → St
  | 0, _, s => s
  | m + 1, w, s =>
    if w.length > k then
      let s := (s.set w { s.node w with closed := true }).put [.line, .closeBlock (w.getLast?.getD [])]
      closeDown k m w.dropLast { s with blockClosed := true }
    else s

/-- `StreamStructuredData.h:352-388` `MoveToRoot`. -/
def moveToRoot (s : St) : Bool × St :=
  if s.cur.length > 0 then
    let s' := closeDown 0 s.cur.length s.cur s
    (true, { s' with path := [], cur := [] })
  else (false, s)

/-- `StreamStructuredData.h:403-415`: the first `k` names of `currentPath`, each with a dot; the answer is `false` if
one of them is not followed by a dot. -/
def firstNames : Nat → List Char → Bool × List Char
  | 0, _ => (true, [])
  | k + 1, t =>
    let r := getToken ['.'] none t
    if r.ok && r.sep == '.' then
      let q := firstNames k r.rest
      (q.1, r.out ++ '.' :: q.2)
    else (false, [])

/-- `StreamStructuredData.h:390-446` `MoveToAncestor`. -/
def moveToAncestor (generations : Nat) (s : St) : Bool × St :=
  if generations > 0 then
    if s.cur.length ≥ generations then
      let good := s.cur.length - generations
      let r := firstNames good s.path
      if r.1 then
        let s' := closeDown good s.cur.length s.cur s
        let path := if r.2.getLast? = some '.' then r.2.dropLast else r.2
        (true, { s' with path := path, cur := s.cur.take good })
      else (false, s)
    else (false, s)
  else (true, s)

/-- `ReferenceContainer::Find` with a path from the node `w`: whether all the names are there. -/
def isThere (s : St) : (w : List Name) → List Name → Bool
  | _, [] => true
  | w, n :: ns => (s.node w).kids.contains n && isThere s (w ++ [n]) ns

/-- `StreamStructuredData.h:470-483`: the number of names that the destination and `currentPath` have in common. -/
def common : (dest : List Name) → (terminator : Char) → (path : List Char) → (i : Nat) → Nat
  | [], _, _, i => i
  | n :: ns, terminator, t, i =>
    if terminator = '.' then
      let r := getToken ['.'] none t
      if r.out = n then common ns r.sep r.rest (i + 1) else i
    else i

/-- `StreamStructuredData.h:505-530`: the nodes of the destination from number `j` are opened; `first` for the first of
them. The flags are those of the node that was current before. -/
def openUp : (first : Bool) → List Name → St → St
  | _, [], s => s
  | first, n :: ns, s =>
    let s := if first && s.blockClosed then s.put [.blockSep] else s
    let s := s.put [.line]
    let c := s.node s.cur
    let s := if c.sepBlock then (s.put [.blockSep]).set s.cur { c with sepBlock := false } else s
    let s := s.put [.openBlock n]
    let s := s.set s.cur { s.node s.cur with sepWrite := true }
    openUp false ns { s with blockClosed := false }

/-- `StreamStructuredData.h:532-542`: the loop deletes the child number `j` for increasing `j`, while the list gets
shorter: every second child remains. -/
def everySecond : List Name → List Name
  | [] => []
  | [_] => []
  | _ :: b :: l => b :: everySecond l

/-- `StreamStructuredData.h:448-558` `MoveAbsolute`. The counter of the loop that closes the nodes is not signed: if the
destination has nothing in common with the current node, it goes from 0 to the greatest number, and `Get` gives an invalid
reference. -/
def moveAbsolute (path : List Char) (s : St) : Bool × St :=
  let dest := RefC.setAddress path
  if dest.length > 0 && isThere s [] dest then
    if (s.node dest).closed then (false, s)
    else
      let exit := common dest '.' s.path 0
      let size := s.cur.length
      let s1 := closeDown exit size s.cur s
      let s1 := if size > exit then s1.set s1.cur { s1.node s1.cur with sepBlock := false } else s1
      if size > 0 && exit == 0 then (false, s1)
      else
        let s2 := openUp true (dest.drop exit) s1
        let s3 := if exit < size then s2.set s2.cur { s2.node s2.cur with kids := everySecond (s2.node s2.cur).kids } else s2
        (true, { s3 with path := path, cur := dest })
  else (false, s)

/-- `StreamStructuredData.h:562-567`, `638-643`: `currentPath`, a dot if it is not empty, and the path. -/
def under (s : St) (path : List Char) : List Char := s.path ++ (if s.path.length > 0 then ['.'] else []) ++ path

/-- `StreamStructuredData.h:560-570` `MoveRelative`. -/
def moveRelative (path : List Char) (s : St) : Bool × St := moveAbsolute (under s path) s

/-- `StreamStructuredData.h:604-628`: the nodes of the path that are missing are created; at most `fuel` names. -/
def createLoop : (fuel : Nat) → (w : List Name) → (path : List Char) → St → St
  | 0, _, _, s => s
  | fuel + 1, w, t, s =>
    let r := getToken ['.'] none t
    if r.ok then
      if (s.node w).kids.contains r.out then createLoop fuel (w ++ [r.out]) r.rest s
      else
        let s := (s.set (w ++ [r.out]) .new).set w { s.node w with kids := (s.node w).kids ++ [r.out] }
        createLoop fuel (w ++ [r.out]) r.rest s
    else s

/-- `StreamStructuredData.h:595-634` `CreateAbsolute`. -/
def createAbsolute (path : List Char) (s : St) : Bool × St := moveAbsolute path (createLoop (path.length + 1) [] path s)

/-- `StreamStructuredData.h:636-644` `CreateRelative`. -/
def createRelative (path : List Char) (s : St) : Bool × St := createAbsolute (under s path) s

/-- The calls. -/
inductive Op (B : Type) where
  | write (name : Name) (v : Leaf B)
  | moveToRoot
  | moveToAncestor (generations : Nat)
  | moveAbsolute (path : List Char)
  | moveRelative (path : List Char)
  | createAbsolute (path : List Char)
  | createRelative (path : List Char)

/-- One call: the answer and the state; `none`: the printing is undefined. -/
def step (p : Printer B) (s : St) : Op B → Option (Bool × St)
  | .write n v => write p n v s
  | .moveToRoot => some (moveToRoot s)
  | .moveToAncestor k => some (moveToAncestor k s)
  | .moveAbsolute t => some (moveAbsolute t s)
  | .moveRelative t => some (moveRelative t s)
  | .createAbsolute t => some (createAbsolute t s)
  | .createRelative t => some (createRelative t s)

/-- A sequence of calls: the answers and the state. -/
def run (p : Printer B) : St → List (Op B) → Option (List Bool × St)
  | s, [] => some ([], s)
  | s, op :: ops => (step p s op).bind fun r => (run p r.2 ops).map fun q => (r.1 :: q.1, q.2)

/-- What is on the stream. -/
def text (p : Printer B) (s : St) : List Char := s.out.flatMap (Ev.text p)

end Verif.StreamData
