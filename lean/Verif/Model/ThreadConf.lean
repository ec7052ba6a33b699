import Verif.Model.RefContainer
/-!
# Model of `BareMetal/L5GAMs/RealTimeThread.cpp` and `RealTimeState.cpp`

The objects are the trees of `Verif.RefC`; the classes of an object are given by its identity.  `Initialise` (lines 165-201) is not
modelled: `functions` are the names that it has read.
-/
namespace Verif.ThreadConf
open Verif.RefC

/-- The classes of the objects: whether a conversion of the reference to that class is valid. -/
structure Classes where
  app : Nat → Bool
  state : Nat → Bool
  gam : Nat → Bool
  stateful : Nat → Bool

/-- `RealTimeThread.h:168-205`: `functions`, `GAMs`, `numberOfGAMs`, `configured`. -/
structure Thread where
  functions : List (List Char)
  gams : List Obj
  numberOfGAMs : Nat
  configured : Bool

/-- `ReferenceContainer.cpp:263-344`: the loop of `Find` with a `ReferenceContainerFilterReferencesTemplate<T>(-1, RECURSIVE)`, whose `Test`
(`ReferenceContainerFilterReferencesTemplate.h:92-96`) is the class of the object: it never finishes, finds all and goes into every
container.  Result: the references added to `result`. -/
def findAll (is : Nat → Bool) : Nat → Nat → List Obj → List Obj → Option (List Obj)
  | 0, _, _, _ => none
  | fuel + 1, index, res, kids =>
    if index < kids.length then
      (kids[index]?).bind fun cur =>
      let res := if is cur.id then res ++ [cur] else res
      match cur.kids? with
      | none => findAll is fuel (index + 1) res kids
      | some ck => (if ck.length > 0 then findAll is fuel 0 res ck else some res).bind fun res => findAll is fuel (index + 1) res kids
    else some res

/-- `ReferenceContainer.cpp:252-261`. -/
def findClass (is : Nat → Bool) (fuel : Nat) (res kids : List Obj) : Option (List Obj) :=
  if kids.length > 0 then findAll is fuel 0 res kids else some res

/-- `RealTimeState.cpp:56-75` `AddStatefuls`: the identities of the references in `statefuls`. -/
def addStatefuls : List Nat → List Obj → List Nat
  | statefuls, [] => statefuls
  | statefuls, o :: os => addStatefuls (if o.id ∈ statefuls then statefuls else statefuls ++ [o.id]) os

/-- `RealTimeThread.cpp:84-95`: the first application of the path: its identity, the names so far (each with a dot) and the rest of the
path. -/
def seekApp (c : Classes) : List Obj → List Char → Option (List Char × List Obj)
  | [], _ => none
  | o :: os, p =>
    let p := p ++ o.name.getD [] ++ ['.']
    if c.app o.id then some (p, os) else seekApp c os p

/-- `RealTimeThread.cpp:96-100`: the first state of the rest. -/
def seekState (c : Classes) : List Obj → Option Nat
  | [] => none
  | o :: os => if c.state o.id then some o.id else seekState c os

/-- `RealTimeThread.cpp:105-158`: the loop over the functions; `GAMs`, `numberOfGAMs` and the statefuls of the state. -/
def functionsLoop (c : Classes) (fuel : Nat) (root : List Obj) (absolute : List Char) :
    List (List Char) → List Obj → Nat → List Nat → Option (Bool × List Obj × Nat × List Nat)
  | [], gams, n, st => some (true, gams, n, st)
  | f :: fs, gams, n, st =>
    (findPath fuel (absolute ++ f) false root).bind fun o =>
    match o.bind fun o => o.kids?.map fun k => (o, k) with
    | none => some (false, gams, n, st)
    | some (o, kids) =>
      (findClass c.gam fuel (if c.gam o.id then gams ++ [o] else gams) kids).bind fun gams =>
      (findClass c.stateful fuel (if c.stateful o.id then [o] else []) kids).bind fun statefuls =>
      functionsLoop c fuel root absolute fs gams gams.length (addStatefuls st statefuls)

/-- `RealTimeThread.cpp:67-163` `ConfigureArchitecture` of the thread with the identity `self`; `states` are the statefuls of each state,
by its identity. -/
def configure (c : Classes) (fuel : Nat) (root : List Obj) (self : Nat) (t : Thread) (states : Nat → List Nat) :
    Option (Bool × Thread × (Nat → List Nat)) :=
  if t.configured then some (true, t, states)
  else
    (find fuel (refFilter 1 false false true false (some self)) [] root).bind fun r =>
    match (seekApp c r.2.1 []).bind fun a => (seekState c a.2).map fun s => (a.1, s) with
    | none => some (false, { t with configured := true }, states)
    | some (p, s) =>
      (functionsLoop c fuel root (p ++ "Functions.".toList) t.functions t.gams t.numberOfGAMs (states s)).bind fun r =>
      some (r.1, { t with gams := r.2.1, numberOfGAMs := r.2.2.1, configured := true },
        fun i => if i = s then r.2.2.2 else states i)

end Verif.ThreadConf
