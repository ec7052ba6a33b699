import Verif.Model.VectorMem
/-!
# Vectors as values

A vector has elements of its own, or shows the first ones of an array of the program, or is empty.  There are no pointers.
-/
namespace Verif.VectorMem.Spec
open Verif.VectorMem

inductive Val where
  | own (l : List Int)
  | shows (e n : Nat)
  | empty

structure World where
  ext : Nat → List Int
  vals : Nat → Val

def start (ext : Nat → List Int) : World := ⟨ext, fun _ => .empty⟩

def World.set (w : World) (i : Nat) (v : Val) : World := { w with vals := fun j => if j = i then v else w.vals j }

/-- A copy has the same elements, or shows the same array; without elements it is empty. -/
def copied : Val → Val
  | .own l => if l = [] then .empty else .own l
  | .shows e n => if n = 0 then .empty else .shows e n
  | .empty => .empty

/-- What an operation does; `none`: it is not allowed, because it goes beyond the elements, or because it makes a vector on the memory of another one. -/
def step (w : World) : Op → Option World
  | .assign i j => some (if i = j then w else w.set i (copied (w.vals j)))
  | .setSize i junk => some (w.set i (if junk = [] then .empty else .own junk))
  | .destroy i => some (w.set i .empty)
  | .make i junk => some (w.set i (.own junk))
  | .borrow i e n => if n ≤ (w.ext e).length then some (w.set i (.shows e n)) else none
  | .view _ _ => none
  | .write i k x =>
    match w.vals i with
    | .own l => if k < l.length then some (w.set i (.own (l.set k x))) else none
    | .shows e n => if k < n then some { w with ext := fun y => if y = e then (w.ext e).set k x else w.ext y } else none
    | .empty => none

def run (w : World) : List Op → Option World
  | [] => some w
  | op :: ops => (step w op).bind fun w' => run w' ops

/-- The elements of a vector. -/
def elements (w : World) (i : Nat) : List Int :=
  match w.vals i with
  | .own l => l
  | .shows e n => (w.ext e).take n
  | .empty => []

end Verif.VectorMem.Spec
