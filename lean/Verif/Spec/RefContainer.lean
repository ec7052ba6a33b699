import Verif.Model.RefContainer
/-! # Specification of reference containers: a sequence of references, and paths of names in a tree -/
namespace Verif.Spec.RefC
open Verif.RefC (Obj Op Out)

/-- Effect of a call on the ideal sequence. -/
def step (l : List Obj) : Op → Out × List Obj
  | .insert none _ => (.flag false, l)
  | .insert (some o) p =>
      -- negative positions (-1 is the default) and positions past the end append
      (.flag true, if 0 ≤ p then l.take p.toNat ++ [o] ++ l.drop p.toNat else l ++ [o])
  | .delete none => (.flag false, l)
  | .delete (some i) => (.flag (l.any (fun o => o.id == i)), l.eraseP (fun o => o.id == i))
  | .get i => (.ref l[i]?, l)
  | .size => (.size l.length, l)

def run (l : List Obj) : List Op → List Out
  | [] => []
  | op :: ops => (step l op).1 :: run (step l op).2 ops

/-- `o` is at `path` below a container with children `kids`. -/
def At (kids : List Obj) : List (List Char) → Obj → Prop
  | [], _ => False
  | [w], o => o ∈ kids ∧ o.name = some w
  | w :: ws, o => ∃ c ∈ kids, ∃ ck, c.name = some w ∧ c.kids? = some ck ∧ At ck ws o

/-- The container with children `kids` is the one with children `top` or one of its descendants. -/
inductive Below (top : List Obj) : List Obj → Prop
  | self : Below top top
  | child {kids c ck} : Below top kids → c ∈ kids → c.kids? = some ck → Below top ck

/-- Follow a path taking at each level the first child of that name (the first container, except at the end). -/
def follow (kids : List Obj) : List (List Char) → Option Obj
  | [] => none
  | [w] => kids.find? (fun o => o.name == some w)
  | w :: ws => (kids.find? (fun o => o.name == some w && o.kids?.isSome)).bind fun c => c.kids?.bind fun ck => follow ck ws

mutual
/-- Nodes of an object in depth first order, itself first. -/
def preorder : Obj → List Obj
  | .leaf i n => [.leaf i n]
  | .cont i n k => .cont i n k :: preorders k
def preorders : List Obj → List Obj
  | [] => []
  | o :: os => preorder o ++ preorders os
end

mutual
/-- Size of a tree, used to bound the number of iterations. -/
def sizeObj : Obj → Nat
  | .leaf _ _ => 1
  | .cont _ _ k => 1 + sizeObjs k
def sizeObjs : List Obj → Nat
  | [] => 1
  | o :: os => sizeObj o + sizeObjs os
end

/-- Children of the same container have different names. -/
def UniqueNames (kids : List Obj) : Prop :=
  ∀ a ∈ kids, ∀ b ∈ kids, a.name = b.name → a = b

end Verif.Spec.RefC
