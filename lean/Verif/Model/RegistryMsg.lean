import Verif.Model.RefPath
/-!
# Model of `BareMetal/L4Messages/ObjectRegistryDatabaseMessageFilter.cpp`

The registry is the tree of `Model/RefContainer.lean`.  What the message brings is a parameter: the text of `Root`, and the outcome of
`ReferenceContainer::Initialise` with it (C62: flag and objects).
-/
namespace Verif.RegistryMsg
open Verif.RefC (Obj findPath deletePath)

/-- `ErrorManagement::ErrorType`, the bits this filter sets. -/
inductive Err where
  | none | parametersError | fatalError
  deriving DecidableEq, Repr

mutual
/-- The object with the identity `i`, which is a container, gets other contents (it is reached by a pointer). -/
def updObj (i : Nat) (g : List Obj → List Obj) : Obj → Obj
  | .leaf j n => .leaf j n
  | .cont j n k => if j = i then .cont j n (g k) else .cont j n (upd i g k)
/-- As `updObj`, in a list of objects. -/
def upd (i : Nat) (g : List Obj → List Obj) : List Obj → List Obj
  | [] => []
  | o :: os => updObj i g o :: upd i g os
end

/-- `ObjectRegistryDatabaseMessageFilter.cpp:131-134`: `Insert` of each object that was built; a valid reference is always accepted
(`ReferenceContainer.cpp:128-150`). -/
def insertAll (built : List Obj) (kids : List Obj) : List Obj :=
  built.foldl (fun k o => (Verif.RefC.insert k (some o) (-1)).2) kids

/-- A message: the function, whether it brings a configuration, and with it `Root` and the outcome of `Initialise`. -/
structure Msg where
  function : List Char
  root : List Char
  built : Option (Bool × List Obj)

/-- `ObjectRegistryDatabaseMessageFilter.cpp:89-101`: `purge`; `node` is the object of the root, none for the registry. -/
def purge (fuel : Nat) (root : List Char) (node : Option Obj) (kids : List Obj) : Option (Err × List Obj) :=
  match node with
  | none => some (.none, [])
  | some o =>
    let kids := match o.kids? with
      | some _ => upd o.id (fun _ => []) kids
      | none => kids
    (deletePath fuel root kids).map fun r => (if r.1 then .none else .fatalError, r.2)

/-- `ObjectRegistryDatabaseMessageFilter.cpp:102-135`: `load`. -/
def load (built : Option (Bool × List Obj)) (node : Option Obj) (kids : List Obj) : Err × List Obj :=
  let isContainer := match node with
    | none => true
    | some o => o.kids?.isSome
  if isContainer then
    match built with
    | none => (.parametersError, kids)
    | some (false, _) => (.parametersError, kids)
    | some (true, objs) =>
      match node with
      | none => (.none, insertAll objs kids)
      | some o => (.none, upd o.id (insertAll objs) kids)
  else (.parametersError, kids)

/-- `ObjectRegistryDatabaseMessageFilter.cpp:56-143` `ConsumeMessage`, of a valid message: the error and the registry after. -/
def consume (fuel : Nat) (m : Msg) (kids : List Obj) : Option (Err × List Obj) :=
  if m.root.length = 0 then act m none
  else (findPath fuel m.root false kids).bind fun found =>
    match found with
    | none => some (.parametersError, kids)
    | some o => act m (some o)
where
  act (m : Msg) (node : Option Obj) : Option (Err × List Obj) :=
    if m.function = "purge".toList then purge fuel m.root node kids
    else if m.function = "load".toList then some (load m.built node kids)
    else some (.parametersError, kids)

end Verif.RegistryMsg
