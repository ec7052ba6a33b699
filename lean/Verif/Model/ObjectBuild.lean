import Verif.Model.ConfigDb
/-!
# Model of the objects built from a configuration

`BareMetal/L2Objects/ReferenceContainer.cpp` (`Initialise` and the tokens) and `BareMetal/L2Objects/Reference.cpp`
(`Initialise`), on a `ConfigurationDatabase`.

Simplifications: the memory suffices; `Insert` of a new valid object succeeds (the lock is not taken by others); the class
registry is a function from the names of the classes to what their `Initialise` does.
-/
namespace Verif.ObjectBuild
open Verif.ConfigDb (Op Out St Name step)

/-! ## The tokens -/

/-- The number of places of a list of tokens (`L2Objects/ReferenceContainer.h`, `ReferenceContainer.cpp:49-50`). -/
def places : Nat := 5

/-- `ReferenceContainer.cpp:481-485`: the loop of `AddToken`, from the place `i`, `k` places left: `exists` and `i`. -/
def addLoop (l : List Char) (t : Char) : (k i : Nat) → Bool × Nat
  | 0, i => (false, i)
  | k + 1, i =>
    match l[i]? with
    | none => (false, i)
    | some c => if c = '\x00' then (false, i) else if c = t then (true, i + 1) else addLoop l t k (i + 1)

/-- `ReferenceContainer.cpp:479-494` `AddToken`. -/
def addToken (l : List Char) (t : Char) : Bool × List Char :=
  let r := addLoop l t places 0
  if r.1 then (true, l) else if r.2 < places then (true, l.set r.2 t) else (false, l)

/-- `ReferenceContainer.cpp:497-500`: the first place of the token, or the number of places. -/
def findToken (l : List Char) (t : Char) : (k i : Nat) → Nat
  | 0, i => i
  | k + 1, i =>
    match l[i]? with
    | none => i
    | some c => if c = t then i else findToken l t k (i + 1)

/-- `ReferenceContainer.cpp:501-504`: each place from `i` gets the next one; `none` is an access outside the list. -/
def shiftTokens (l : List Char) : (k i : Nat) → Option (List Char)
  | 0, _ => some l
  | k + 1, i =>
    if i < places - 1 then
      match l[i + 1]? with
      | none => none
      | some c => shiftTokens (l.set i c) k (i + 1)
    else some l

/-- `ReferenceContainer.cpp:496-506` `RemoveToken`. -/
def removeToken (l : List Char) (t : Char) : Option (List Char) :=
  (shiftTokens l places (findToken l t places 0)).map (·.set (places - 1) '\x00')

/-- `ReferenceContainer.cpp:508-516` `IsToken`: the loop, from the place `i`, `k` places left. -/
def isTokenLoop (l : List Char) (t : Char) : (k i : Nat) → Bool
  | 0, _ => false
  | k + 1, i =>
    match l[i]? with
    | none => false
    | some c => if c = '\x00' then false else if c = t then true else isTokenLoop l t k (i + 1)

def isToken (l : List Char) (t : Char) : Bool := isTokenLoop l t places 0

/-! ## The objects -/

variable {V : Type}

/-- A class, as far as `Initialise` goes: whether it is a `ReferenceContainer` (whose `Initialise` it calls first), the
parameters it reads then, and whether it accepts them. -/
structure Cls (V : Type) where
  container : Bool
  params : List Name
  accept : List (Option V) → Bool

/-- An object: its class, its name, `IsDomain`, the parameters it has read, and what is in the container. -/
inductive BObj (V : Type) where
  | mk (cls name : List Char) (domain : Bool) (values : List (Option V)) (kids : List (BObj V))

/-- `SetDomain(true)` (`Object.cpp`). -/
def BObj.setDomain : BObj V → BObj V
  | .mk c n _ v k => .mk c n true v k

/-- What objects are made of: the lists of tokens, the text of a value (if it is a string), the classes. -/
structure Env (V : Type) where
  build : List Char
  domain : List Char
  text : V → Option (List Char)
  classes : List Char → Option (Cls V)

/-- `childName[0]`. -/
def first (n : Name) : Char := n.headD '\x00'

/-- The calls of `Read` of the parameters in the `Initialise` of a class, in order. -/
def readParams : List Name → St V → Option (List (Option V) × St V)
  | [], s => some ([], s)
  | p :: ps, s =>
    match step s (.read p) with
    | some (.value v, s) => (readParams ps s).map fun r => (v :: r.1, r.2)
    | _ => none

mutual
/-- `ReferenceContainer.cpp:387-430`: the loop of `ReferenceContainer::Initialise`, from the child `i` of `n`; the result,
the objects inserted, and the database (whose current node moves). `none`: no more fuel, or a value out of its range. -/
def initKids (e : Env V) : (fuel n i : Nat) → List (BObj V) → St V → Option (Bool × List (BObj V) × St V)
  | 0, _, _, _, _ => none
  | fuel + 1, n, i, os, s =>
    if i < n then
      match step s (.getChildName i) with
      | some (.name (some name), s) =>
        if isToken e.build (first name) || isToken e.domain (first name) then
          match step s (.moveRelative name) with
          | some (.flag true, s) =>
            match initRef e fuel s with
            | none => none
            | some (none, s) => some (false, os, s)
            | some (some o, s) =>
              let o := if isToken e.domain (first name) then o.setDomain else o
              match step s (.moveToAncestor 1) with
              | some (.flag true, s) => initKids e fuel n (i + 1) (os ++ [o]) s
              | some (_, s) => some (false, os ++ [o], s)
              | none => none
          | some (_, s) => some (false, os, s)
          | none => none
        else initKids e fuel n (i + 1) os s
      | some (_, s) => some (false, os, s)
      | none => none
    else some (true, os, s)

/-- `Reference.cpp:99-156` `Reference::Initialise` of an empty reference, with `initOnly` false, and the `Initialise` of
the class: the object, if all is well. -/
def initRef (e : Env V) : (fuel : Nat) → St V → Option (Option (BObj V) × St V)
  | 0, _ => none
  | fuel + 1, s =>
    match step s (.read "Class".toList) with
    | some (.value (some v), s) =>
      match e.text v with
      | none => some (none, s)
      | some cls =>
        match e.classes cls with
        | none => some (none, s)
        | some c =>
          match step s .getName with
          | some (.name (some name), s) =>
            match contents e fuel c s with
            | none => none
            | some (false, _, s) => some (none, s)
            | some (true, os, s) =>
              match readParams c.params s with
              | none => none
              | some (vals, s) =>
                if c.accept vals then some (some (.mk cls (name.drop 1) false vals os), s) else some (none, s)
          | _ => none
    | some (_, s) => some (none, s)
    | none => none

/-- `ReferenceContainer.cpp:381-388` for a container, `Object.cpp` `Object::Initialise` for another object. -/
def contents (e : Env V) : (fuel : Nat) → Cls V → St V → Option (Bool × List (BObj V) × St V)
  | 0, _, _ => none
  | fuel + 1, c, s =>
    if c.container then
      match step s .getNumberOfChildren with
      | some (.size n, s) => initKids e fuel n 0 [] s
      | _ => none
    else some (true, [], s)
end

/-- `ReferenceContainer.cpp:381-432` `ReferenceContainer::Initialise`, of a container with the objects `os`. -/
def initialise (e : Env V) (fuel : Nat) (os : List (BObj V)) (s : St V) : Option (Bool × List (BObj V) × St V) :=
  match step s .getNumberOfChildren with
  | some (.size n, s) => initKids e fuel n 0 os s
  | _ => none

end Verif.ObjectBuild
