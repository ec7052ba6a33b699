import Verif.Model.PlainLogger
/-!
# What plain loggers do

Written from the documentation of `PlainLoggerService.h`.  Taken from the model: the children of the loggers (`Env`), the events
of a schedule (`Ev`) and the states (`St`).
-/
namespace Verif.Spec.PlainLogger
open Verif.PlainLogger (Env Ev St Handler)

/-- What a user does. -/
inductive Op
  | add (l : Nat)
  | remove (l : Nat)
  | say (m : Nat)
deriving DecidableEq, Repr

/-- A logger that can be initialised: it has children and they are all consumers. -/
def good (e : Env) (l : Nat) : Prop := e.children l ≠ [] ∧ ∀ c ∈ e.children l, e.consumer c = true

/-- The errors reported when a logger is initialised and others are registered. -/
def refusal (e : Env) (registered : List Nat) (l : Nat) : List Nat :=
  if e.children l = [] then [0]
  else if (e.children l).any fun c => !e.consumer c then [1]
  else if 4 ≤ registered.length then [2, 3]
  else []

/-- The loggers that are registered, what their consumers took, and what the routine that was there at the beginning was
called with. -/
structure World where
  registered : List Nat
  taken : List (Nat × Nat)
  others : List (Nat × Nat)
deriving DecidableEq, Repr

/-- A message: every consumer of every logger, in their order, or, if there is no logger, the first routine. -/
def deliver (e : Env) (h : Nat) (w : World) (m : Nat) : World :=
  if w.registered = [] then { w with others := w.others ++ [(h, m)] }
  else { w with taken := w.taken ++ w.registered.flatMap fun l => (e.children l).map fun c => (c, m) }

/-- One thing a user does. -/
def act (e : Env) (h : Nat) (w : World) : Op → World
  | .add l =>
    if refusal e w.registered l = [] then { w with registered := w.registered ++ [l] }
    else (refusal e w.registered l).foldl (deliver e h) w
  | .remove l => { w with registered := w.registered.erase l }
  | .say m => deliver e h w m

def world (e : Env) (h : Nat) (ops : List Op) : World := ops.foldl (act e h) ⟨[], [], []⟩

/-- The schedule in which one thread does all, each thing to its end. -/
def alone : Op → List Ev
  | .add l => .initialise 0 l :: List.replicate 5 (.go 0)
  | .remove l => .purge 0 l :: List.replicate 2 (.go 0)
  | .say m => .report 0 m :: List.replicate 3 (.go 0)

/-- No thread is between the removal of a logger and the end of it. -/
def Settled (s : St) : Prop := ∀ t, s.pc t ≠ .removed ∧ s.pc t ≠ .restore

/-- Nobody else sets the routine, and no logger is initialised while another is being removed. -/
def Calm (run : List Ev → St) (vs : List Ev) : Prop :=
  (∀ t h, Ev.set t h ∉ vs) ∧ ∀ pre t l post, vs = pre ++ .initialise t l :: post → Settled (run pre)

end Verif.Spec.PlainLogger
