import Verif.Model.ThreadSettings
/-!
# What was set last while the thread was not running
-/
namespace Verif.ThreadSettings.Spec
open Verif.ThreadSettings

/-- Whether the thread runs after a history, the last operation first. -/
def running : List Op → Bool
  | [] => false
  | .start ok :: before => running before || ok
  | .stop ended :: before => running before && !ended
  | .ends :: _ => false
  | _ :: before => running before

/-- The class that a text of a configuration names. -/
def named (x : String) : Option Class :=
  if x = "IdlePriorityClass" then some .idle else if x = "NormalPriorityClass" then some .normal else if x = "RealTimePriorityClass" then some .realTime else none

/-- What an operation gives as a class, a level, a mask of processors, a size of the stack, a timeout. -/
def givesClass : Op → Option Class
  | .setClass x => some x
  | .initialise c => c.cls.bind named
  | _ => none
def givesLevel : Op → Option Nat
  | .setLevel x => some x
  | .initialise c => c.level
  | _ => none
def givesCpu : Op → Option Nat
  | .setCpu x => some x
  | .initialise c => c.cpu
  | _ => none
def givesStack : Op → Option Nat
  | .setStack x => some x
  | .initialise c => c.stack
  | _ => none
def givesTimeout (perMsec : Nat) : Op → Option (Option Nat)
  | .setTimeout t => some t
  | .initialise c => c.timeout.map fun t => if t = 0 then none else some (t * perMsec)
  | _ => none

/-- What was given last (`early`: also while the thread was running) in a history, the last operation first. -/
def last {α : Type} (early : Bool) (gives : Op → Option α) (d : α) : List Op → α
  | [] => d
  | op :: before =>
    match gives op with
    | some x => if early || !running before then x else last early gives d before
    | none => last early gives d before

/-- The settings that are in force after a history, the last operation first. -/
def inForce (perMsec cpu stack : Nat) (h : List Op) : Settings :=
  ⟨last true (givesTimeout perMsec) none h, last false givesClass .normal h, last false givesLevel 0 h, last false givesCpu cpu h, last false givesStack stack h⟩

/-- A timeout that the counter of a thread can hold. -/
def Short (t : Option Nat) : Prop := ∀ x, t = some x → x < 2 ^ 31

end Verif.ThreadSettings.Spec
