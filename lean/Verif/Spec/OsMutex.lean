import Verif.Model.OsMutex
/-! ## Specification: a mutual exclusion semaphore, seen from what its calls answer -/
namespace Verif.Spec.OsMutex
open Verif.OsMutex (Obs)

/-- Who holds the semaphore and how many times; if it is open, and recursive. -/
structure View where
  isOpen : Bool := false
  recursive : Bool := false
  holder : Option (Nat × Nat) := none
deriving DecidableEq, Repr

/-- What is known after one more answer. -/
def View.next (v : View) : Obs → View
  | .created r true => { isOpen := true, recursive := r, holder := none }
  | .created _ false => v
  | .closed => { v with isOpen := false }
  | .locked t =>
    match v.holder with
    | some (_, n) => { v with holder := some (t, n + 1) }
    | none => { v with holder := some (t, 1) }
  | .unlocked _ =>
    match v.holder with
    | some (t, n + 2) => { v with holder := some (t, n + 1) }
    | _ => { v with holder := none }
  | _ => v

def view (trace : List Obs) : View := trace.foldl View.next {}

/-- What the answers of a semaphore can be: it is locked while it is open by a thread if nobody has it, or if it is
recursive and this thread has it; only a closed semaphore refuses; the one that unlocks has it. -/
def View.allows (v : View) : Obs → Prop
  | .locked t => v.isOpen = true ∧ (v.holder = none ∨ (v.recursive = true ∧ ∃ n, v.holder = some (t, n)))
  | .refused _ => v.isOpen = false
  | .unlocked t => v.isOpen = true ∧ ∃ n, v.holder = some (t, n)
  | .notUnlocked t => v.isOpen = false ∨ (v.recursive = true ∧ ∀ n, v.holder ≠ some (t, n))
  | _ => True

/-- Every answer was possible when it was given. -/
def Exclusive (v : View) : List Obs → Prop
  | [] => True
  | o :: os => v.allows o ∧ Exclusive (v.next o) os

/-- A thread holds the semaphore. -/
def Holds (trace : List Obs) (t : Nat) : Prop := ∃ n, (view trace).holder = some (t, n)

end Verif.Spec.OsMutex
