import Verif.Model.ThreadsDb
/-!
# Specification of the database of threads (C74): a table by identifier

Only the records and the operations are taken from the model.
-/
namespace Verif.Spec.ThreadsDb
open Verif.ThreadsDb (Rec Op)

/-- A table: the records, newest first. -/
abbrev Table := List Rec

/-- The record with an identifier. -/
def lookup (t : Table) (id : Nat) : Option Rec := t.find? fun r => r.id == id

/-- What an operation does; `done` is the answer of an insertion. -/
def step (t : Table) : Op → (done : Bool) → Table
  | .new r, true => r :: t
  | .new _, false => t
  | .remove id, _ => t.filter fun r => r.id ≠ id

/-- A history. -/
def steps (t : Table) : List Op → List Bool → Table
  | [], _ => t
  | op :: ops, answers => steps (step t op (answers.headD false)) ops answers.tail

/-- Each insertion is of an identifier that is not in the table. -/
def Fresh : Table → List Op → List Bool → Prop
  | _, [], _ => True
  | t, .new r :: ops, answers => lookup t r.id = none ∧ Fresh (step t (.new r) (answers.headD false)) ops answers.tail
  | t, .remove i :: ops, answers => Fresh (step t (.remove i) (answers.headD false)) ops answers.tail

end Verif.Spec.ThreadsDb
