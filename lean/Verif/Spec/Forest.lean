import Verif.Spec.ConfigDb
/-! ## Specification: the tree below a node, with its values in order -/
namespace Verif.Spec.ConfigDb
open Verif.ConfigDb (Name)

/-- The children of a node, in order: values, and nodes with their own children. -/
inductive Forest (V : Type) where
  | nil
  | leaf (n : Name) (v : V) (rest : Forest V)
  | node (n : Name) (sub rest : Forest V)
deriving DecidableEq

variable {V W : Type}

def Forest.names : Forest V → List Name
  | .nil => []
  | .leaf n _ r => n :: r.names
  | .node n _ r => n :: r.names

/-- What is at a path. -/
def Forest.at : Forest V → Name → List Name → Option (Item V)
  | .nil, _, _ => none
  | .leaf n v r, m, p => if n = m then (if p = [] then some (.leaf v) else none) else r.at m p
  | .node n s r, m, p => if n = m then (match p with
      | [] => some (.node s.names)
      | k :: q => s.at k q) else r.at m p

def Forest.item (F : Forest V) : List Name → Option (Item V)
  | [] => some (.node F.names)
  | n :: p => F.at n p

/-- The names of the children of a node differ. -/
def Forest.distinct : Forest V → Bool
  | .nil => true
  | .leaf n _ r => decide (n ∉ r.names) && r.distinct
  | .node n s r => decide (n ∉ r.names) && s.distinct && r.distinct

/-- Another value in each leaf. -/
def Forest.map (f : V → W) : Forest V → Forest W
  | .nil => .nil
  | .leaf n v r => .leaf n (f v) (r.map f)
  | .node n s r => .node n (s.map f) (r.map f)

/-- All values, with their names. -/
def Forest.allLeaves (P : Name → V → Bool) : Forest V → Bool
  | .nil => true
  | .leaf n v r => P n v && r.allLeaves P
  | .node _ s r => s.allLeaves P && r.allLeaves P

/-- All names of nodes. -/
def Forest.allNodes (P : Name → Bool) : Forest V → Bool
  | .nil => true
  | .leaf _ _ r => r.allNodes P
  | .node n s r => P n && s.allNodes P && r.allNodes P

/-- No node, the first one included, is without children. -/
def Forest.full : Forest V → Bool
  | .nil => false
  | .leaf _ _ .nil => true
  | .leaf _ _ r => r.full
  | .node _ s .nil => s.full
  | .node _ s r => s.full && r.full

def Forest.depth : Forest V → Nat
  | .nil => 0
  | .leaf _ _ r => r.depth
  | .node _ s r => max (s.depth + 1) r.depth

/-- `F` is what the tree `item` has below `p`. -/
def Below (item : List Name → Option (Item V)) (p : List Name) (F : Forest V) : Prop := ∀ q, item (p ++ q) = F.item q

end Verif.Spec.ConfigDb
