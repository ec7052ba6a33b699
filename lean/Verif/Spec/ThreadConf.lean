import Verif.Spec.RefSearch
import Verif.Spec.RefContainer
import Verif.Model.ThreadConf
/-! # Specification of the functions of a thread -/
namespace Verif.Spec.ThreadConf
open Verif.RefC (Obj)
open Verif.Spec.RefC (At preorder)
open Verif.Spec.RefSearch (found isObject)
open Verif.ThreadConf (Classes)

/-- The thread `self` is below the state `state` of the application at the place `names`: the first application on the way from the root
and the first state after it. -/
def Home (c : Classes) (root : List Obj) (self : Nat) (names : List (List Char)) (state : Nat) : Prop :=
  ∃ v rest up app mid st low, found (isObject self) true false root = v :: rest ∧
    v.chain = up ++ app :: (mid ++ st :: low) ∧
    (∀ o ∈ up, c.app o.id = false) ∧ c.app app.id = true ∧ (∀ o ∈ mid, c.state o.id = false) ∧ c.state st.id = true ∧
    (up ++ [app]).map (fun o => o.name) = names.map some ∧ st.id = state

/-- The words of a path with dots between them. -/
def dotted : List (List Char) → List Char
  | [] => []
  | [w] => w
  | w :: v :: ws => w ++ ['.'] ++ dotted (v :: ws)

/-- `f` is a path of words, and it is below `Functions` of the application at `names`. -/
def FunctionPath (names : List (List Char)) (f : List Char) (ws : List (List Char)) : Prop :=
  ws ≠ [] ∧ (∀ w ∈ ws, w ≠ [] ∧ '.' ∉ w) ∧ f = dotted ws ∧
    (dotted (names ++ ["Functions".toList] ++ ws)).length < 4294967296

/-- The function called `f` of the application at `names` is the container `o`. -/
def Function (root : List Obj) (names : List (List Char)) (f : List Char) (o : Obj) : Prop :=
  ∃ ws, FunctionPath names f ws ∧ At root (names ++ ["Functions".toList] ++ ws) o ∧ o.kids?.isSome

/-- There is no such function. -/
def NoFunction (root : List Obj) (names : List (List Char)) (f : List Char) : Prop :=
  ∃ ws, FunctionPath names f ws ∧ ∀ o, At root (names ++ ["Functions".toList] ++ ws) o → o.kids? = none

/-- The functions of these names are these objects, in this order. -/
inductive Functions (root : List Obj) (names : List (List Char)) : List (List Char) → List Obj → Prop
  | nil : Functions root names [] []
  | cons {f o fs os} : Function root names f o → Functions root names fs os → Functions root names (f :: fs) (o :: os)

/-- The objects of a class in these functions: for each function itself and all below it, depth first. -/
def members (is : Nat → Bool) (os : List Obj) : List Obj :=
  os.flatMap fun o => (preorder o).filter fun x => is x.id

end Verif.Spec.ThreadConf
