import Verif.Model.Logger

namespace Verif.Spec.Logger
open Verif.Logger

/-- The messages that were accepted. -/
def logged : List Obs → List (Nat × List Nat)
  | [] => []
  | .logged i t :: os => (i, t) :: logged os
  | _ :: os => logged os

/-- The messages that were handed out. -/
def delivered : List Obs → List (Nat × List Nat)
  | [] => []
  | .got _ i t :: os => (i, t) :: delivered os
  | _ :: os => delivered os

/-- The pages that are in the hands of the reader. -/
def heldFrom (h : List Nat) : List Obs → List Nat
  | [] => h
  | .got p _ _ :: os => heldFrom (p :: h) os
  | .back p :: os => heldFrom (h.erase p) os
  | _ :: os => heldFrom h os

def held (tr : List Obs) : List Nat := heldFrom [] tr

/-- How many of the accepted messages have not been handed out. -/
def pending (tr : List Obs) : Nat := (logged tr).length - (delivered tr).length

/-- The reader returns only pages that it holds; the descriptions are in arrays of at least 200 bytes. -/
def Allowed (tr : List Obs) : Op → Prop
  | .log _ d => 200 ≤ d.length
  | .get => True
  | .ret p => p ∈ held tr

inductive Legal (n : Nat) : List Op → Prop
  | nil : Legal n []
  | snoc {os o} : Legal n os → Allowed (calls (init n) os).2 o → Legal n (os ++ [o])

end Verif.Spec.Logger
