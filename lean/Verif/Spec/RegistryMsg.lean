import Verif.Spec.RefContainer
/-! # Specification of a place in a tree of objects (C94) -/
namespace Verif.Spec.RegistryMsg
open Verif.RefC (Obj)

/-- In the tree `kids` the object `o` is at a place; without it the tree is `without`, with `x` in its stead it is `put x`. -/
inductive Place : (kids : List Obj) → (o : Obj) → (without : List Obj) → (put : Obj → List Obj) → Prop
  | here (pre : List Obj) (o : Obj) (post : List Obj) : Place (pre ++ o :: post) o (pre ++ post) (fun x => pre ++ x :: post)
  | under (pre : List Obj) (i : Nat) (n : Option (List Char)) (post : List Obj) {ck o w p} : Place ck o w p →
      Place (pre ++ .cont i n ck :: post) o (pre ++ .cont i n w :: post) (fun x => pre ++ .cont i n (p x) :: post)

mutual
/-- The identities in a tree. -/
def idsOf : Obj → List Nat
  | .leaf i _ => [i]
  | .cont i _ k => i :: ids k
def ids : List Obj → List Nat
  | [] => []
  | o :: os => idsOf o ++ ids os
end

end Verif.Spec.RegistryMsg
