/-!
# Model of `BareMetal/L2Objects/ReferenceContainer.cpp` and its filters

A container is the list of the objects it refers to (that `LinkedListHolder` is a list is C02).  The object graph is a
finite tree: the model does not cover containers that contain themselves.  Locks always succeed (default infinite
timeout, one thread).  Objects are compared by identity (`id`, the address of the object).  Sizes are below `2^31`.
`none` as the result of a function is undefined behaviour, or fuel exhausted.
-/
namespace Verif.RefC

/-- An object: identity, name (`Object::GetName`, which may be NULL) and, for a `ReferenceContainer`, its children. -/
inductive Obj where
  | leaf (id : Nat) (name : Option (List Char))
  | cont (id : Nat) (name : Option (List Char)) (kids : List Obj)

def Obj.id : Obj → Nat
  | .leaf i _ => i
  | .cont i _ _ => i

def Obj.name : Obj → Option (List Char)
  | .leaf _ n => n
  | .cont _ n _ => n

/-- `ReferenceContainer.cpp:247-249` `IsContainer` together with the children. -/
def Obj.kids? : Obj → Option (List Obj)
  | .leaf _ _ => none
  | .cont _ _ k => some k

/-- Result of a recursive removal: the same object with other children. -/
def Obj.withKids : Obj → List Obj → Obj
  | .leaf i n, _ => .leaf i n
  | .cont i n _, k => .cont i n k

/-- What a filter looks for: `ReferenceContainerFilterObjectName.h:45-115` `addressToSearch`, or
`ReferenceContainerFilterReferences.h:43-80` `referenceToSearch` (an invalid reference is `none`). -/
inductive Kind where
  | byName (addr : List (List Char))
  | byRef (id : Option Nat)

/-- `ReferenceContainerFilter.h:58-80,145-165`: counters and mode bits. -/
structure Filter where
  kind : Kind
  occurrence : Int
  orig : Int
  recursive : Bool
  reverse : Bool
  path : Bool
  remove : Bool

/-- `ReferenceContainerFilter.cpp:80-82`. -/
def Filter.finished (f : Filter) : Bool := f.occurrence == 0
/-- `ReferenceContainerFilter.cpp:88-90`. -/
def Filter.searchAll (f : Filter) : Bool := f.orig == -1
/-- `ReferenceContainerFilter.cpp:70-74` `IncrementFound`. -/
def Filter.incrementFound (f : Filter) : Filter := if f.occurrence > 0 then { f with occurrence := f.occurrence - 1 } else f
/-- `ReferenceContainerFilter.cpp:118-129` `SetMode`, after the mode bits have been stored. -/
def Filter.setMode (f : Filter) : Filter :=
  if f.path then { f with orig := (if f.searchAll then 1 else f.orig), recursive := true } else f

/-- `ReferenceContainerFilterObjectName.cpp:201-213` `TestPath`. -/
def testPath (addr : List (List Char)) : List Obj → Nat → Bool
  | [], _ => true
  | o :: os, i => (match o.name with | some n => addr[i]? == some n | none => false) && testPath addr os (i + 1)

/-- `ReferenceContainerFilterObjectName.cpp:215-267` `Test`. -/
def testName (addr : List (List Char)) (f : Filter) (prev : List Obj) (o : Obj) : Bool × Filter :=
  if addr.length > 0 then
    match o.name with
    | none => (false, f)
    | some n =>
      let index := if addr.length > 1 then prev.length else 0
      let pathOk := index < addr.length && addr[index]? == some n && (!(addr.length > 1) || testPath addr prev 0)
      let found := pathOk && (!(addr.length > 1) || prev.length == addr.length - 1)
      let f := if addr.length > 1 then
          (if pathOk then Filter.setMode { f with path := true }
           else Filter.setMode { f with path := false, recursive := false })
        else f
      (found, if found then f.incrementFound else f)
  else (false, f)

/-- `ReferenceContainerFilterReferences.cpp:59-66` `Test`. -/
def testRef (id : Option Nat) (f : Filter) (o : Obj) : Bool × Filter :=
  if id = some o.id then (true, f.incrementFound) else (false, f)

/-- Virtual dispatch of `Test`. -/
def Filter.test (f : Filter) (prev : List Obj) (o : Obj) : Bool × Filter :=
  match f.kind with
  | .byName addr => testName addr f prev o
  | .byRef id => testRef id f o

/-- `ReferenceContainer.cpp:256-259`: initial index; `none` when the list is empty and nothing is done. -/
def startIndex (f : Filter) (kids : List Obj) : Option Int :=
  if kids.length > 0 then some (if f.reverse then (kids.length : Int) - 1 else 0) else none

/-- `ReferenceContainer.cpp:263-344`: the loop of `Find`.  State: index, filter, result, children of this container.
After a removal the node, hence `currentNodeReference`, is freed (lines 266, 277): using it again is undefined. -/
def findLoop : Nat → Int → Filter → List Obj → List Obj → Option (Filter × List Obj × List Obj)
  | 0, _, _, _, _ => none
  | fuel + 1, index, f, res, kids =>
    if !f.finished && ((f.reverse && decide (index > -1)) || (!f.reverse && decide (index < (kids.length : Int)))) then
      (kids[index.toNat]?).bind fun cur =>
      let t := f.test res cur
      let f := t.2
      let store := t.1 && (f.searchAll || f.finished)
      let res := if store then res ++ [cur] else res
      let removed := store && f.remove
      let kids := if removed then kids.eraseIdx index.toNat else kids
      if f.finished then some (f, res, kids)
      else if removed then none
      else
        match (if f.recursive then cur.kids? else none) with
        | none => findLoop fuel (if f.reverse then index - 1 else index + 1) f res kids
        | some ck =>
          let res := if f.path then res ++ [cur] else res
          let sizeBefore := res.length
          (match startIndex f ck with
            | none => some (f, res, ck)
            | some i => findLoop fuel i f res ck).bind fun r =>
          let f := r.1
          let res := if !f.recursive then []
            else if sizeBefore = r.2.1.length then (if f.path then r.2.1.dropLast else r.2.1) else r.2.1
          findLoop fuel (if f.reverse then index - 1 else index + 1) f res (kids.set index.toNat (cur.withKids r.2.2))
    else some (f, res, kids)

/-- `ReferenceContainer.cpp:252-352` `Find(result, filter)`. -/
def find (fuel : Nat) (f : Filter) (res kids : List Obj) : Option (Filter × List Obj × List Obj) :=
  match startIndex f kids with
  | none => some (f, res, kids)
  | some i => findLoop fuel i f res kids

/-- `StringHelperExtras_Generic.cpp:133-179` `TokenizeByChars(s, ".", token)`: token and rest. -/
def tokenize : List Char → List Char × List Char
  | [] => ([], [])
  | c :: cs => if c = '.' then ([], cs) else ((c :: (tokenize cs).1), (tokenize cs).2)

/-- `ReferenceContainerFilterObjectName.cpp:86-98`: the loop that counts the nodes of the address. -/
def countNodes : List Char → Nat → Nat → Nat → Nat
  | [], _, _, nodes => nodes
  | c :: cs, i, lastFound, nodes =>
    if c = '.' then
      if (i + 2 ^ 32 - lastFound) % 2 ^ 32 = 1 then 0 else countNodes cs (i + 1) i (nodes + 1)
    else countNodes cs (i + 1) lastFound nodes

/-- `ReferenceContainerFilterObjectName.cpp:113-118`: the tokens. -/
def tokens : Nat → List Char → List (List Char)
  | 0, _ => []
  | n + 1, s => (tokenize s).1 :: tokens n (tokenize s).2

/-- `ReferenceContainerFilterObjectName.cpp:66-120` `SetAddress`: the list of nodes. -/
def setAddress (s : List Char) : List (List Char) :=
  if s.length > 0 then
    let startIn := if s[0]? = some '.' then 1 else 0
    let n := countNodes (s.drop startIn) startIn ((startIn + 2 ^ 32 - 1) % 2 ^ 32) 1
    let n := if s[s.length - 1]? = some '.' then (if n > 0 then n - 1 else n) else n
    tokens n (s.drop startIn)
  else []

/-- `ReferenceContainerFilterObjectName.cpp:56-63,125-130`, `ReferenceContainerFilter.cpp:59-65`: constructor. -/
def nameFilter (occurrence : Int) (recursive reverse path remove : Bool) (s : List Char) : Filter :=
  let addr := setAddress s
  let f := Filter.setMode ⟨.byName addr, occurrence, occurrence, recursive, reverse, path, remove⟩
  if addr.length > 1 then Filter.setMode { f with path := true } else f

/-- `ReferenceContainerFilterReferences.cpp:51-56`, `ReferenceContainerFilter.cpp:59-65`: constructor. -/
def refFilter (occurrence : Int) (recursive reverse path remove : Bool) (id : Option Nat) : Filter :=
  Filter.setMode ⟨.byRef id, occurrence, occurrence, recursive, reverse, path, remove⟩

/-- `ReferenceContainer.cpp:239-245` `Delete(path)`. -/
def deletePath (fuel : Nat) (s : List Char) (kids : List Obj) : Option (Bool × List Obj) :=
  (find fuel (nameFilter 1 false false false true s) [] kids).map fun r => (decide (r.2.1.length > 0), r.2.2)

/-- `ReferenceContainer.cpp:354-367` `Find(path, recursive)`. -/
def findPath (fuel : Nat) (s : List Char) (recursive : Bool) (kids : List Obj) : Option (Option Obj) :=
  (find fuel (nameFilter 1 recursive false false false s) [] kids).map fun r => r.2.1.getLast?

/-- `ReferenceContainer.cpp:128-150` `Insert(ref, position)`. -/
def insert (kids : List Obj) (ref : Option Obj) (position : Int) : Bool × List Obj :=
  match ref with
  | none => (false, kids)
  | some o =>
    if position = -1 then (true, kids ++ [o])
    else (true, kids.take (position % 2 ^ 32).toNat ++ [o] ++ kids.drop (position % 2 ^ 32).toNat)

/-- `ReferenceContainer.cpp:231-237` `Delete(ref)`. -/
def delete (fuel : Nat) (kids : List Obj) (id : Option Nat) : Option (Bool × List Obj) :=
  (find fuel ⟨.byRef id, 1, 1, false, false, false, true⟩ [] kids).map fun r => (decide (r.2.1.length > 0), r.2.2)

/-- `ReferenceContainer.cpp:90-105` `Get`. -/
def get (kids : List Obj) (idx : Nat) : Option Obj := if idx < kids.length then kids[idx]? else none

/-- API calls: `Insert` (an invalid reference is `none`), `Delete`, `Get`, `Size`. -/
inductive Op where
  | insert (ref : Option Obj) (position : Int)
  | delete (ref : Option Nat)
  | get (idx : Nat)
  | size

inductive Out where
  | flag (b : Bool)
  | ref (o : Option Obj)
  | size (n : Nat)

def step (fuel : Nat) (kids : List Obj) : Op → Option (Out × List Obj)
  | .insert r p => some (.flag (insert kids r p).1, (insert kids r p).2)
  | .delete i => (delete fuel kids i).map fun r => (.flag r.1, r.2)
  | .get i => some (.ref (get kids i), kids)
  | .size => some (.size kids.length, kids)

def run (fuel : Nat) (kids : List Obj) : List Op → Option (List Out × List Obj)
  | [] => some ([], kids)
  | op :: ops => (step fuel kids op).bind fun r => (run fuel r.2 ops).map fun q => (r.1 :: q.1, q.2)

end Verif.RefC
