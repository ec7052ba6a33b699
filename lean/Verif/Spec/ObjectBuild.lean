import Verif.Model.ObjectBuild
import Verif.Spec.Forest
/-! ## Specification: the objects a configuration describes -/
namespace Verif.Spec.ObjectBuild
open Verif.ConfigDb (Name)
open Verif.Spec.ConfigDb (Forest)
open Verif.ObjectBuild (BObj Cls)

variable {V : Type}

/-- The marks of the names of objects and of domains, the text of a value, and the classes. -/
structure World (V : Type) where
  build : List Char
  domain : List Char
  text : V → Option (List Char)
  classes : List Char → Option (Cls V)

/-- A name is that of a domain. -/
def World.isDomain (w : World V) (n : Name) : Bool := n.head?.any fun c => w.domain.contains c

/-- A name is that of an object. -/
def World.marked (w : World V) (n : Name) : Bool := n.head?.any fun c => w.build.contains c || w.domain.contains c

/-- The value of a name among the children of a node. -/
def value (F : Forest V) (n : Name) : Option V :=
  match F.item [n] with
  | some (.leaf v) => some v
  | _ => none

/-- The name of the class of a node. -/
def World.className (w : World V) (F : Forest V) : Option (List Char) := (value F "Class".toList).bind w.text

/-- The objects described by the children of a node, in order, up to the first that cannot be made; and where that is, as
a path below the node (`none`: all can). An object has the class written in its node, the name of its node without the
mark, the values of its parameters, and, if it is a container, the objects described in its node. -/
def World.build? (w : World V) : Forest V → List (BObj V) × Option (List Name)
  | .nil => ([], none)
  | .leaf n _ r => if w.marked n then ([], some []) else w.build? r
  | .node n S r =>
    if w.marked n then
      match w.className S, (w.className S).bind w.classes with
      | some name, some c =>
        match (if c.container then w.build? S else ([], none)) with
        | (_, some p) => ([], some (n :: p))
        | (kids, none) =>
          if c.accept (c.params.map (value S)) then
            (.mk name n.tail (w.isDomain n) (c.params.map (value S)) kids :: (w.build? r).1, (w.build? r).2)
          else ([], some [n])
      | _, _ => ([], some [n])
    else w.build? r

/-- A name one can move to: not empty, and without dots. -/
def reachable (n : Name) : Bool := decide (n ≠ []) && decide (n.length < 2 ^ 32) && !n.contains '\x00' && !n.contains '.'

/-- All names with a mark can be moved to. -/
def World.namesOk (w : World V) (F : Forest V) : Bool :=
  F.allLeaves (fun n _ => !w.marked n || reachable n) && F.allNodes (fun n => !w.marked n || reachable n)

/-- A list of at most five tokens, without repetitions, as it is kept. -/
def kept (l : List Char) : List Char := l ++ List.replicate (5 - l.length) '\x00'

def tokensOk (l : List Char) : Bool := decide (l.length ≤ 5) && decide l.Nodup && !l.contains '\x00'

end Verif.Spec.ObjectBuild
