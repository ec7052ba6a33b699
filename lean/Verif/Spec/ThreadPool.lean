import Verif.Model.ThreadPool
/-!
# Specification of a pool of threads with settings (C77)

Only the records are taken from the model.
-/
namespace Verif.Spec.ThreadPool
open Verif.ThreadPool (Conf Thr Setting)

/-- The same settings, but for the timeout. -/
def SameButTimeout (a b : Conf) : Prop := a.cls = b.cls ∧ a.level = b.level ∧ a.cpu = b.cpu ∧ a.stack = b.stack

/-- The value that a table of rows (thread, value) gives to a thread: the last row for it, or else the value of the service. -/
def given (rows : List (Nat × Nat)) (i : Nat) (otherwise : Nat) : Nat :=
  ((rows.reverse.find? fun r => r.1 == i).map (·.2)).getD otherwise

/-- One setting has the value and the others are as they were. -/
def Changed (before after : Conf) : Setting → Prop
  | .cls v => after = { before with cls := v }
  | .level v => after = { before with level := v }
  | .cpu v => after = { before with cpu := v }
  | .stack v => after = { before with stack := v }

/-- No thread runs. -/
def Quiet (pool : List Thr) : Prop := ∀ t, t ∈ pool → t.running = none

end Verif.Spec.ThreadPool
