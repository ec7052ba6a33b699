import Verif.Model.RefContainer
/-!
# Model of `ReferenceContainer::Insert(path, reference)` and of `ObjectRegistryDatabase::Find`

As in `Model/RefContainer.lean` the objects form a finite tree and the locks succeed.  Memory for the containers that are
created is always available; their identities are `fresh`, `fresh + 1`, and so on.
-/
namespace Verif.RefC

/-- `Object.cpp:446-455` `SetName`. -/
def Obj.rename : Obj → List Char → Obj
  | .leaf i _, w => .leaf i (some w)
  | .cont i _ k, w => .cont i (some w) k

/-- `ReferenceContainer.cpp:172-215`: the loop of `Insert(path, ref)`, from the node with the children `kids` on.  Result:
`ok`, `created` and the children of the node. -/
def insertLoop : Nat → (token toTokenize : List Char) → (ref : Obj) → (fresh : Nat) → List Obj →
    Option (Bool × Bool × List Obj)
  | 0, _, _, _, _, _ => none
  | fuel + 1, token, toTokenize, ref, fresh, kids =>
    if token = [] then some (true, false, kids)
    else
      let next := tokenize toTokenize
      match kids.findIdx? (fun o => o.name == some token) with
      | some i =>
        match (kids[i]?).bind Obj.kids? with
        | none => some (false, false, kids)
        | some ck =>
          (insertLoop fuel next.1 next.2 ref fresh ck).map fun r =>
            (r.1, r.2.1, match kids[i]? with | some c => kids.set i (c.withKids r.2.2) | none => kids)
      | none =>
        if next.1 = [] then some (true, true, kids ++ [ref.rename token])
        else
          (insertLoop fuel next.1 next.2 ref (fresh + 1) []).map fun r =>
            (r.1, r.2.1, kids ++ [.cont fresh (some token) r.2.2])

/-- `ReferenceContainer.cpp:152-229` `Insert(path, ref)`. -/
def insertPath (path : List Char) (ref : Option Obj) (fresh : Nat) (kids : List Obj) : Option (Bool × List Obj) :=
  match ref with
  | none => some (false, kids)
  | some o =>
    if path.length = 0 then some (insert kids (some o) (-1))
    else
      let first := tokenize path
      (insertLoop (path.length + 1) first.1 first.2 o fresh kids).map fun r => (r.1 && r.2.1, r.2.2)

/-- `ObjectRegistryDatabase.cpp:75-77`: the colons at the beginning. -/
def backSteps : List Char → Nat
  | ':' :: cs => backSteps cs + 1
  | _ => 0

/-- `ObjectRegistryDatabase.cpp:85-101`: the objects of the path from the last one up; result: `domain` and
`stepsCounter`. -/
def climb (isDomain : Obj → Bool) : List Obj → Option Obj → Nat → Option Obj × Nat
  | [], domain, steps => (domain, steps)
  | o :: os, domain, steps =>
    if steps = 0 then (domain, steps)
    else if isDomain o then climb isDomain os (some o) (steps - 1)
    else climb isDomain os domain steps

/-- `ObjectRegistryDatabase.cpp:68-137` `Find(path, current)`; `current` is the identity of the object, if the reference
is valid; `isDomain` is `Object::IsDomain` of the objects. -/
def registryFind (fuel : Nat) (isDomain : Obj → Bool) (path : List Char) (current : Option Nat) (kids : List Obj) :
    Option (Option Obj) :=
  match current with
  | none => findPath fuel path false kids
  | some i =>
    let n := backSteps path
    if n > 0 then
      (find fuel (refFilter 1 false false true false (some i)) [] kids).bind fun r =>
      let c := climb isDomain r.2.1.reverse none n
      if c.2 > 0 then findPath fuel (path.drop n) false kids
      else
        match c.1.bind Obj.kids? with
        | some ck => findPath fuel (path.drop n) false ck
        | none => some none
    else findPath fuel path false kids

end Verif.RefC
