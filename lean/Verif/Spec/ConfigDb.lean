import Verif.Model.ConfigDb

/-! ## Specification: a tree of named values as a map from paths

A path is a list of names.  `item p` is what the tree has at `p`: nothing, a value, or a node with the ordered list
of the names of its children.  `cur` is the path of the current node. -/
namespace Verif.Spec.ConfigDb
open Verif.ConfigDb (Name Op Out)

inductive Item (V : Type) where
  | leaf (v : V)
  | node (children : List Name)
deriving DecidableEq

structure Db (V : Type) where
  item : List Name → Option (Item V)
  cur : List Name

variable {V : Type}

/-- The empty tree. -/
def empty : Db V := ⟨fun q => if q = [] then some (.node []) else none, []⟩

def children (item : List Name → Option (Item V)) (p : List Name) : List Name :=
  match item p with
  | some (.node ch) => ch
  | _ => []

/-- The tree with what is at `p/n` replaced by a value. -/
def setLeaf (item : List Name → Option (Item V)) (p : List Name) (n : Name) (v : V) : List Name → Option (Item V) :=
  fun q =>
    if q = p ++ [n] then some (.leaf v)
    else if (p ++ [n]).isPrefixOf q then none
    else if q = p then some (.node (if n ∈ children item p then children item p else children item p ++ [n]))
    else item q

/-- The tree without what is at and below `p/n`. -/
def remove (item : List Name → Option (Item V)) (p : List Name) (n : Name) : List Name → Option (Item V) :=
  fun q =>
    if (p ++ [n]).isPrefixOf q then none
    else if q = p then some (.node ((children item p).filter (· ≠ n)))
    else item q

/-- The tree with a new empty node at `p/n`, last among its brothers. -/
def addNode (item : List Name → Option (Item V)) (p : List Name) (n : Name) : List Name → Option (Item V) :=
  fun q =>
    if q = p ++ [n] then some (.node [])
    else if q = p then some (.node (children item p ++ [n]))
    else item q

/-- The tree where the nodes of the path `ns` below `p` that were missing have been added. -/
def addPath (item : List Name → Option (Item V)) (p : List Name) : List Name → List Name → Option (Item V)
  | [] => item
  | n :: ns => addPath (if (item (p ++ [n])).isSome then item else addNode item p n) (p ++ [n]) ns

/-- The names in a path written with dots. -/
def splitDots : List Char → List Name
  | [] => [[]]
  | c :: cs => if c = '.' then [] :: splitDots cs else match splitDots cs with
    | [] => [[c]]
    | n :: r => (c :: n) :: r

def names (path : List Char) : List Name := if path = [] then [] else splitDots path

def isNode : Option (Item V) → Bool
  | some (.node _) => true
  | _ => false
def isLeaf : Option (Item V) → Bool
  | some (.leaf _) => true
  | _ => false

/-- Moving to the node `ns` below `p`. -/
def moveTo (db : Db V) (p ns : List Name) : Out V × Db V :=
  if ns ≠ [] ∧ isNode (db.item (p ++ ns)) then (.flag true, { db with cur := p ++ ns }) else (.flag false, db)

/-- Creating the node `ns` below `p`, with the missing nodes on the way; nothing must be there before. -/
def create (db : Db V) (p ns : List Name) : Out V × Db V :=
  if ns ≠ [] ∧ db.item (p ++ ns) = none then (.flag true, ⟨addPath db.item p ns, p ++ ns⟩) else (.flag false, db)

def step (db : Db V) : Op V → Out V × Db V
  | .write n v => if n ≠ [] then (.flag true, { db with item := setLeaf db.item db.cur n v }) else (.flag false, db)
  | .read n => (match db.item (db.cur ++ [n]) with
    | some (.leaf v) => .value (some v)
    | _ => .value none, db)
  | .delete n =>
    if (db.item (db.cur ++ [n])).isSome then (.flag true, { db with item := remove db.item db.cur n })
    else (.flag false, db)
  | .moveToRoot => (.flag true, { db with cur := [] })
  | .moveAbsolute path => moveTo db [] (names path)
  | .moveRelative path => moveTo db db.cur (names path)
  | .moveToChild i =>
    match (children db.item db.cur)[i]? with
    | some n => moveTo db db.cur [n]
    | none => (.flag false, db)
  | .moveToAncestor k =>
    if 1 ≤ k ∧ k ≤ db.cur.length then (.flag true, { db with cur := db.cur.take (db.cur.length - k) })
    else (.flag false, db)
  -- a failed `CreateAbsolute` leaves the current node at the root
  | .createAbsolute path => create { db with cur := [] } [] (names path)
  | .createRelative path => create db db.cur (names path)
  | .getName => (.name (some (db.cur.getLast?.getD [])), db)
  | .getChildName i => (.name (children db.item db.cur)[i]?, db)
  | .getNumberOfChildren => (.size (children db.item db.cur).length, db)

def run (db : Db V) : List (Op V) → List (Out V) × Db V
  | [] => ([], db)
  | op :: ops => ((step db op).1 :: (run (step db op).2 ops).1, (run (step db op).2 ops).2)

/-- A path string: empty, or non-empty names separated by single dots. -/
def pathOk (path : List Char) : Bool :=
  decide (path.length < 2 ^ 32) && !path.contains '\x00' && (path == [] || (splitDots path).all (· ≠ []))

/-- Some node on the way to `ns` is a value. -/
def throughLeaf (item : List Name → Option (Item V)) (p ns : List Name) : Bool :=
  (List.range ns.length).any fun k => 1 ≤ k && isLeaf (item (p ++ ns.take k))

/-- Calls covered: paths are well formed and no creation has a value on its way. -/
def allowed (db : Db V) : Op V → Bool
  | .moveAbsolute path | .moveRelative path => pathOk path
  | .createAbsolute path => pathOk path && !throughLeaf db.item [] (names path)
  | .createRelative path => pathOk path && !throughLeaf db.item db.cur (names path)
  | _ => true

def allAllowed (db : Db V) : List (Op V) → Bool
  | [] => true
  | op :: ops => allowed db op && allAllowed (step db op).2 ops

end Verif.Spec.ConfigDb
