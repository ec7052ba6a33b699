import Verif.Model.Token
/-!
# Model of `BareMetal/L4Configuration/ConfigurationDatabase.cpp` and `ConfigurationDatabaseNode.cpp`

The nodes live in a heap indexed by numbers.  A node keeps its children in `ents` (the array `container`), and the index
of each name in `tree` (`binTree`, an `UnorderedMap` keyed by the hash of the name; it is taken as an ideal map from
names to indexes, which is what C04 proves of it for names whose hashes do not collide).  Values are stored and
returned as they are (`AnyObject::Serialise` and `TypeConvert` between equal types are not modelled, nor are the
branches for structured values).  Reference counting and the allocation of the arrays are not modelled: an
unreachable node just remains in the heap.  `none` is the use of a null pointer.
-/
namespace Verif.ConfigDb
open Verif.Token (getToken)

abbrev Name := List Char

/-- What an element of `container` refers to: an `AnyObject` or a `ConfigurationDatabaseNode`. -/
inductive Ent (V : Type) where
  | leaf (name : Name) (v : V)
  | node (id : Nat)
deriving DecidableEq

/-- `ConfigurationDatabaseNode.h:130-165`: one node. -/
structure Nd (V : Type) where
  name : Name
  parent : Option Nat
  ents : List (Ent V)
  tree : List (Name × Nat)

/-- `ConfigurationDatabase.h`: `rootNode`, `currentNode` (`none` is an invalid reference), and the heap. -/
structure St (V : Type) where
  heap : Nat → Nd V
  next : Nat
  root : Nat
  cur : Option Nat

variable {V : Type}

def setNd (h : Nat → Nd V) (i : Nat) (n : Nd V) : Nat → Nd V := fun j => if j = i then n else h j

/-- `ref->GetName()`. -/
def entName (h : Nat → Nd V) : Ent V → Name
  | .leaf n _ => n
  | .node i => (h i).name

/-- `ConfigurationDatabaseNode.cpp:45-52` constructor, with the name and parent given by 305,308 of the database. -/
def newNd (name : Name) (parent : Option Nat) : Nd V := ⟨name, parent, [], []⟩

/-- `ConfigurationDatabase.cpp:49-55` constructor. -/
def init : St V := ⟨fun _ => newNd [] none, 1, 0, some 0⟩

/-- `binTree.Search`. -/
def search (t : List (Name × Nat)) (n : Name) : Option Nat := (t.find? (fun e => e.1 = n)).map (·.2)

/-- `ConfigurationDatabaseNode.cpp:81-125` `Insert(ref, failIfExists)` on node `i`; `binTree.Insert` leaves in `index`
the index found, if any. -/
def insert (h : Nat → Nd V) (i : Nat) (ref : Ent V) (failIfExists : Bool) : Bool × (Nat → Nd V) :=
  let nd := h i
  let name := entName h ref
  match search nd.tree name with
  | some index => if failIfExists then (false, h) else (true, setNd h i { nd with ents := nd.ents.set index ref })
  | none => (true, setNd h i { nd with ents := nd.ents ++ [ref], tree := nd.tree ++ [(name, nd.ents.length)] })

/-- `ConfigurationDatabaseNode.cpp:131-139` `Get(idx)`. -/
def get (h : Nat → Nd V) (i : Nat) (idx : Nat) : Option (Ent V) := (h i).ents[idx]?

/-- `ConfigurationDatabaseNode.cpp:179-190` `FindLeaf(name)`. -/
def findLeaf (h : Nat → Nd V) (i : Nat) (name : Name) : Option (Ent V) :=
  (search (h i).tree name).bind fun index => if index < (h i).ents.length then (h i).ents[index]? else none

/-- `ConfigurationDatabaseNode.cpp:141-177` `Find(path)`. -/
def find (h : Nat → Nd V) : Nat → Nat → List Char → Option (Ent V)
  | 0, _, _ => none
  | fuel + 1, i, path =>
    let r := getToken ['.'] none path
    if r.ok then
      (search (h i).tree r.out).bind fun index =>
      if index < (h i).ents.length then
        if r.sep = '.' then
          match (h i).ents[index]? with
          | some (.node j) =>
            let next := path.drop (r.out.length + 1)
            if next.length > 0 then find h fuel j next else some (.node j)
          | _ => none
        else (h i).ents[index]?
      else none
    else none

/-- `rc.IsValid()` for a `ReferenceT<ConfigurationDatabaseNode> rc` made from an element. -/
def ifNode {α : Type} (e : Ent V) (f : Nat → α) (otherwise : α) : α :=
  match e with
  | .node j => f j
  | .leaf _ _ => otherwise

/-- `ConfigurationDatabaseNode.cpp:60-79` `Purge`. -/
def purge : Nat → (Nat → Nd V) → Nat → (Nat → Nd V)
  | 0, h, _ => h
  | fuel + 1, h, i =>
    let h1 := setNd h i { h i with parent := none }
    let h2 := (h i).ents.foldl (fun h e => ifNode e (purge fuel h) h) h1
    setNd h2 i { h2 i with ents := [], tree := [] }

/-- `ConfigurationDatabaseNode.cpp:234-242`: the index is built again. -/
def rebuild (h : Nat → Nd V) : List (Ent V) → Nat → List (Name × Nat) → Bool × List (Name × Nat)
  | [], _, t => (true, t)
  | e :: es, i, t =>
    match search t (entName h e) with
    | some _ => (false, t)
    | none => rebuild h es (i + 1) (t ++ [(entName h e, i)])

/-- `ConfigurationDatabaseNode.cpp:192-253` `Delete(ref)` on node `i`; `fuel` bounds the depth of the purge. -/
def delete (fuel : Nat) (h : Nat → Nd V) (i : Nat) (ref : Ent V) : Bool × (Nat → Nd V) :=
  let nd := h i
  match search nd.tree (entName h ref) with
  | none => (false, h)
  | some index =>
    if index < nd.ents.length then
      let ents := nd.ents.take index ++ nd.ents.drop (index + 1)
      let r := rebuild h ents 0 []
      let h1 := setNd h i { nd with ents := ents, tree := r.2 }
      if r.1 then
        match ref with
        | .node j => (true, purge fuel (setNd h1 j { h1 j with parent := none }) j)
        | .leaf _ _ => (true, h1)
      else (false, h1)
    else (false, h)

/-- Observations. -/
inductive Out (V : Type) where
  | flag (ok : Bool)
  | value (v : Option V)
  | name (n : Option Name)
  | size (n : Nat)
deriving DecidableEq

inductive Op (V : Type) where
  | write (name : Name) (v : V)
  | read (name : Name)
  | delete (name : Name)
  | moveToRoot
  | moveAbsolute (path : List Char)
  | moveRelative (path : List Char)
  | moveToChild (idx : Nat)
  | moveToAncestor (generations : Nat)
  | createAbsolute (path : List Char)
  | createRelative (path : List Char)
  | getName
  | getChildName (idx : Nat)
  | getNumberOfChildren

/-- A `ReferenceT<ConfigurationDatabaseNode>` made from a reference: `ReferenceT.h:239-252`. -/
def asNode : Option (Ent V) → Option Nat
  | some (.node i) => some i
  | _ => none

/-- `ConfigurationDatabase.cpp:257-266`: the loop of `MoveToAncestor`; `i` is the loop index, `k` what remains. -/
def ancestorLoop (h : Nat → Nd V) (root generations : Nat) : Nat → Nat → Nat → Option Nat
  | 0, _, cur => some cur
  | k + 1, i, cur =>
    match (h cur).parent with
    | none => none
    | some father =>
      if father = root then (if generations = i + 1 then ancestorLoop h root generations k (i + 1) father else none)
      else ancestorLoop h root generations k (i + 1) father

/-- `ConfigurationDatabase.cpp:286-318`: the loop of `CreateNodes`: heap, next, `currentNode`, `ok`, `created`. -/
def createLoop : Nat → (Nat → Nd V) → Nat → Option Nat → List Char → Bool →
    Option ((Nat → Nd V) × Nat × Option Nat × Bool × Bool)
  | 0, h, next, cur, _, created => some (h, next, cur, true, created)
  | fuel + 1, h, next, cur, path, created =>
    let r := getToken ['.'] none path
    if r.ok then
      cur.bind fun c =>
      let newNode :=
        let h1 := setNd h next (newNd r.out none)
        let ins := insert h1 c (.node next) true
        if ins.1 then
          createLoop fuel (setNd ins.2 next { ins.2 next with parent := some c }) (next + 1) (some next) r.rest true
        else some (ins.2, next + 1, some c, false, created)
      if r.sep = '\x00' then newNode
      else
        match findLeaf h c r.out with
        | some e => createLoop fuel h next (asNode (some e)) r.rest created
        | none => newNode
    else some (h, next, cur, true, created)

/-- `ConfigurationDatabase.cpp:275-326` `CreateNodes(path)`. -/
def createNodes (s : St V) (path : List Char) : Option (Bool × St V) :=
  if path.length > 0 then
    (createLoop (path.length + 1) s.heap s.next s.cur path false).bind fun r =>
    let ok := r.2.2.2.1 && r.2.2.2.2
    some (ok, { s with heap := r.1, next := r.2.1, cur := if ok then r.2.2.1 else s.cur })
  else some (false, s)

/-- `ConfigurationDatabase.cpp:94-371`, one call each: `Write` 107-123, `Read` 204-214, `Delete` 337-345, `MoveToRoot`
183, `MoveAbsolute` 219, `MoveRelative` 230, `MoveToChild` 241, `MoveToAncestor` 253-273, `CreateAbsolute` 328,
`CreateRelative` 333, `GetName` 356, `GetChildName` 360, `GetNumberOfChildren` 365. -/
def step (s : St V) : Op V → Option (Out V × St V)
  | .write name v =>
    if name.length > 0 then
      match s.cur with
      | none => some (.flag false, s)
      | some c => let r := insert s.heap c (.leaf name v) false; some (.flag r.1, { s with heap := r.2 })
    else some (.flag false, s)
  | .read name =>
    match s.cur with
    | none => some (.value none, s)
    | some c =>
      match findLeaf s.heap c name with
      | some (.leaf _ v) => some (.value (some v), s)
      | _ => some (.value none, s)
  | .delete name => s.cur.bind fun c =>
    match findLeaf s.heap c name with
    | some e => let r := delete s.next s.heap c e; some (.flag r.1, { s with heap := r.2 })
    | none => some (.flag false, s)
  | .moveToRoot => some (.flag true, { s with cur := some s.root })
  | .moveAbsolute path =>
    match asNode (find s.heap (path.length + 1) s.root path) with
    | some i => some (.flag true, { s with cur := some i })
    | none => some (.flag false, s)
  | .moveRelative path => s.cur.bind fun c =>
    match asNode (find s.heap (path.length + 1) c path) with
    | some i => some (.flag true, { s with cur := some i })
    | none => some (.flag false, s)
  | .moveToChild idx => s.cur.bind fun c =>
    match asNode (get s.heap c idx) with
    | some i => some (.flag true, { s with cur := some i })
    | none => some (.flag false, s)
  | .moveToAncestor generations =>
    if generations ≠ 0 then
      s.cur.bind fun c =>
      match ancestorLoop s.heap s.root generations generations 0 c with
      | some i => some (.flag true, { s with cur := some i })
      | none => some (.flag false, s)
    else some (.flag false, s)
  | .createAbsolute path => (createNodes { s with cur := some s.root } path).map fun r => (.flag r.1, r.2)
  | .createRelative path => (createNodes s path).map fun r => (.flag r.1, r.2)
  | .getName => some (.name (s.cur.map fun c => (s.heap c).name), s)
  | .getChildName idx => s.cur.bind fun c => some (.name ((get s.heap c idx).map (entName s.heap)), s)
  | .getNumberOfChildren => some (.size ((s.cur.map fun c => (s.heap c).ents.length).getD 0), s)

def run (s : St V) : List (Op V) → Option (List (Out V) × St V)
  | [] => some ([], s)
  | op :: ops => (step s op).bind fun r => (run r.2 ops).map fun q => (r.1 :: q.1, q.2)

end Verif.ConfigDb
