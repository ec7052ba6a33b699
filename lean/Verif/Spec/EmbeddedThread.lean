import Verif.Model.EmbeddedThread
/-!
# What the owner and the callback of a service thread rely on
-/
namespace Verif.Spec.EmbeddedThread
open Verif.EmbeddedThread (Obs Stage Status Ev)

/-- The operation is completed: bit 17 of an answer. -/
def isCompleted (a : Nat) : Bool := (a / 2 ^ 17) % 2 = 1

/-- Where the callback is in the life of a thread: between two lives; in the call of the startup, main or end stage;
between two calls, with the answer of the last one. -/
inductive Life where
  | off
  | startupIn (w : Nat)
  | startupDone (w a : Nat)
  | mainIn (w : Nat)
  | mainDone (w a : Nat)
  | endIn (w : Nat)
deriving DecidableEq, Repr

/-- The stage that ends a life, from the last answer. -/
def endStage (a : Nat) : Stage := if isCompleted a then .termination else .badTermination

/-- The life of the callback: startup once, main as long as the answers report no error, then the end stage that the
last answer asks for, then possibly a new life.  All the calls of a life are made by the same thread, and a call only
begins when the previous one has returned.  What is not a call or a return does not matter. -/
def next : Life → Obs → Option Life
  | .off, .called w .startup => some (.startupIn w)
  | .startupIn w, .returned v a => if v = w then some (.startupDone w a) else none
  | .startupDone w a, .called v st =>
    if v = w then if st = .main then some (.mainIn w) else if st = endStage a then some (.endIn w) else none else none
  | .mainIn w, .returned v a => if v = w then some (.mainDone w a) else none
  | .mainDone w a, .called v st =>
    if v = w then
      if st = .main then (if a = 0 then some (.mainIn w) else none)
      else if st = endStage a then some (.endIn w) else none
    else none
  | .endIn w, .returned v _ => if v = w then some .off else none
  | _, .called _ _ => none
  | _, .returned _ _ => none
  | l, _ => some l

/-- The calls of the callback in `tr` follow the rules of `next`. -/
def life (tr : List Obs) : Option Life := tr.foldlM next .off

/-- Whether the service was said to be off: by `Stop` or `GetStatus`, and not started since.  A call of the callback is
not allowed then. -/
def quietNext : Bool → Obs → Option Bool
  | _, .stopRet 0 => some true
  | _, .statusRet .off => some true
  | _, .startCall => some false
  | true, .called _ _ => none
  | b, _ => some b

def quiet (tr : List Obs) : Option Bool := tr.foldlM quietNext false

/-- No thread was killed. -/
def noKill (tr : List Obs) : Prop := ∀ w, Obs.killed w ∉ tr

/-- Number of calls of the callback by the threads. -/
def calls (tr : List Obs) : Nat := tr.countP fun o => match o with | .called _ _ => true | _ => false

/-- The first result of `Stop` in `tr`. -/
def firstStop (tr : List Obs) : Option Nat := tr.findSome? fun o => match o with | .stopRet e => some e | _ => none

/-- The event is a step of thread `i`. -/
def stepOf (i : Nat) : Ev → Bool
  | .worker j _ => j == i
  | _ => false

/-- The event is a step of the call that the owner is executing. -/
def ownStep : Ev → Bool
  | .ctl _ => true
  | _ => false

end Verif.Spec.EmbeddedThread
