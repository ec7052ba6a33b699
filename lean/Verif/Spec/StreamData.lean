import Verif.Model.StreamData
import Verif.Spec.Forest
import Verif.Spec.ConfigDoc
/-! ## Specification: what is written on the stream -/
namespace Verif.Spec.StreamData
open Verif.Config (Leaf)
open Verif.ConfigDb (Name)
open Verif.Json (Printer)
open Verif.StreamData (Ev Op)
open Verif.Spec.ConfigDb (Forest)
open Verif.Spec.ConfigDoc (nameOk)

variable {B : Type}

/-- The calls that write a tree at the current node: each node is created, filled and left. -/
def calls : Forest (Leaf B) → List (Op B)
  | .nil => []
  | .leaf n v r => .write n v :: calls r
  | .node n s r => .createRelative n :: (calls s ++ .moveToAncestor 1 :: calls r)

/-- All values can be printed. -/
def printable (p : Printer B) (F : Forest (Leaf B)) : Bool := F.allLeaves fun _ v => (p.value v).any (·.1)

/-- The characters of a value. -/
def shown (p : Printer B) (v : Leaf B) : List Char := ((p.value v).map (·.2)).getD []

/-- Lines and separators: what is not an element of the tree. -/
def between : Ev → Bool
  | .line | .varSep | .blockSep => true
  | _ => false

/-- A separator of any kind. -/
def isSep : Ev → Bool
  | .varSep | .blockSep => true
  | _ => false

/-- The tree without lines and separators. -/
def elements (p : Printer B) : Forest (Leaf B) → List Ev
  | .nil => []
  | .leaf n v r => .openVar n :: .value (shown p v) :: .closeVar n :: elements p r
  | .node n s r => .openBlock n :: (elements p s ++ .closeBlock n :: elements p r)

/-- Without lines, and with one kind of separators. -/
def plain : List Ev → List Ev
  | [] => []
  | .line :: es => plain es
  | .blockSep :: es => .varSep :: plain es
  | e :: es => e :: plain es

/-- The tree with one separator between an element and the next in the same node. -/
def separated (p : Printer B) : (first : Bool) → Forest (Leaf B) → List Ev
  | _, .nil => []
  | first, .leaf n v r =>
    (if first then [] else [.varSep]) ++ .openVar n :: .value (shown p v) :: .closeVar n :: separated p false r
  | first, .node n s r =>
    (if first then [] else [.varSep]) ++ .openBlock n :: (separated p true s ++ .closeBlock n :: separated p false r)

/-- The number of nodes that come right after a value when there is another node before in the same node. -/
def late : (node value : Bool) → Forest (Leaf B) → Nat
  | _, _, .nil => 0
  | b, _, .leaf _ _ r => late b true r
  | b, v, .node _ s r => (if b && v then 1 else 0) + late false false s + late true false r

/-- No node has 2^32 values or more. -/
def fewValues : Forest (Leaf B) → Nat → Bool
  | .nil, _ => true
  | .leaf _ _ r, k => decide (k + 1 < 2 ^ 32) && fewValues r (k + 1)
  | .node _ s r, k => fewValues s 0 && fewValues r k

/-- The length of the longest path, each name with a dot. -/
def longest : Forest (Leaf B) → Nat
  | .nil => 0
  | .leaf _ _ r => longest r
  | .node n s r => max (n.length + 1 + longest s) (longest r)

/-- The names of the nodes differ in each node. -/
def nodeNames : Forest (Leaf B) → List Name
  | .nil => []
  | .leaf _ _ r => nodeNames r
  | .node n _ r => n :: nodeNames r

def differ : Forest (Leaf B) → Bool
  | .nil => true
  | .leaf _ _ r => differ r
  | .node n s r => decide (n ∉ nodeNames r) && differ s && differ r

/-- The names of nodes are simple, and values and paths are not too many or too long. -/
def fits (F : Forest (Leaf B)) : Bool :=
  F.allNodes nameOk && differ F && fewValues F 0 && decide (longest F < 2 ^ 32)

/-- The blocks that are open after some events, from the outside to the inside; `none`: a block has been closed that is
not the last one opened. -/
def openBlocks : List Name → List Ev → Option (List Name)
  | w, [] => some w
  | w, .openBlock n :: es => openBlocks (w ++ [n]) es
  | w, .closeBlock n :: es => if w.getLast? = some n then openBlocks w.dropLast es else none
  | w, _ :: es => openBlocks w es

/-- Names with dots between them. -/
def dotted : List Name → List Char
  | [] => []
  | [w] => w
  | w :: ws => w ++ '.' :: dotted ws

/-- A call whose path is made of one or more simple names. -/
def simplePath (t : List Char) : Prop := ∃ ws, ws ≠ [] ∧ (∀ w ∈ ws, nameOk w = true) ∧ t = dotted ws

def simple : Op B → Prop
  | .moveAbsolute t | .moveRelative t | .createAbsolute t | .createRelative t => simplePath t
  | _ => True

/-- The length of a path of a call, and one. -/
def size : Op B → Nat
  | .moveAbsolute t | .moveRelative t | .createAbsolute t | .createRelative t => t.length + 1
  | _ => 0

/-- Where a call that is answered with yes leads. -/
def leads (w : List Name) : Op B → List Name → Prop
  | .write _ _, w' => w' = w
  | .moveToRoot, w' => w' = []
  | .moveToAncestor k, w' => w' = w.take (w.length - k)
  | .moveAbsolute t, w' | .createAbsolute t, w' => dotted w' = t
  | .moveRelative t, w' | .createRelative t, w' => ∃ u, w' = w ++ u ∧ dotted u = t

/-- Where several calls lead. -/
def leadsTo : List Name → List (Op B) → List Name → Prop
  | w, [], w' => w' = w
  | w, op :: ops, w' => ∃ u, leads w op u ∧ leadsTo u ops w'

end Verif.Spec.StreamData
