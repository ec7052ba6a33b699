import Verif.Model.MultiClient
/-!
# What the owner and the callback of a service for several clients rely on
-/
namespace Verif.Spec.MultiClient
open Verif.MultiClient (Obs Phase Ev State Pc OPc init run)

def isCompleted (a : Nat) : Bool := (a / 2 ^ 17) % 2 = 1

/-- Where the callback is in the life of one thread, with the last answer. -/
inductive Life where
  | off
  | startupIn
  | startupDone (a : Nat)
  | waitIn
  | waitDone (a : Nat)
  | serviceIn
  | serviceDone (a : Nat)
  | endIn
deriving DecidableEq, Repr

def endPhase (a : Nat) : Phase := if isCompleted a then .termination else .badTermination

/-- The life of one thread.  Startup once; if it answered without error, requests are waited for as long as the answer is
`Timeout` (512); once the answer is that there is no error the request is served as long as the answers report no error;
then the phase that ends the life, from the last answer.  The end phase may come after any answer: the thread may have
been told to stop. -/
def next : Life → Obs → Option Life
  | .off, .called _ .startup => some .startupIn
  | .startupIn, .returned _ a => some (.startupDone a)
  | .startupDone a, .called _ p =>
    if p = .waitRequest ∧ a = 0 then some .waitIn else if p = endPhase a then some .endIn else none
  | .waitIn, .returned _ a => some (.waitDone a)
  | .waitDone a, .called _ p =>
    if p = .waitRequest ∧ a = 512 then some .waitIn
    else if p = .serviceRequest ∧ a = 0 then some .serviceIn
    else if p = endPhase a then some .endIn else none
  | .serviceIn, .returned _ a => some (.serviceDone a)
  | .serviceDone a, .called _ p =>
    if p = .serviceRequest ∧ a = 0 then some .serviceIn else if p = endPhase a then some .endIn else none
  | .endIn, .returned _ _ => some .off
  | _, _ => none

/-- The thread that calls the callback or returns from it. -/
def who : Obs → Option Nat
  | .called w _ => some w
  | .returned w _ => some w
  | _ => none

/-- What thread `i` did with the callback. -/
def ofThread (i : Nat) (tr : List Obs) : List Obs := tr.filter fun o => who o == some i

/-- The calls of thread `i` follow the rules of `next`. -/
def life (i : Nat) (tr : List Obs) : Option Life := (ofThread i tr).foldlM next .off

/-- The phase of the last call of the callback by thread `i`. -/
def lastCall (i : Nat) (tr : List Obs) : Option Phase :=
  tr.foldl (fun l o => match o with | .called w p => if w = i then some p else l | _ => l) none

/-- Number of calls of the callback by thread `i`. -/
def callsOf (i : Nat) (tr : List Obs) : Nat :=
  tr.countP fun o => match o with | .called w _ => w == i | _ => false

/-- The thread has passed a test of the size of the pool and has not yet changed the pool, or it is in `RemoveThread`. -/
def inside : Pc → Bool
  | .addStart | .addInsert _ | .outer true | .removeTop _ | .removeGet _ | .removeDel => true
  | _ => false

/-- The same for the owner in `Start`. -/
def ownInside : OPc → Bool
  | .startBegin | .startInsert _ => true
  | _ => false

/-- No two of the threads and the owner are inside. -/
def alone (s : State) : Prop :=
  (∀ i j, inside (s.ts i).pc = true → inside (s.ts j).pc = true → i = j) ∧
    (ownInside s.own = true → ∀ i, inside (s.ts i).pc = false)

/-- The accesses to the pool happen one after the other: at no time are two inside. -/
def oneByOne (s : State) (es : List Ev) : Prop := ∀ p, p <+: es → alone (run s p)

/-- `Start` has returned without error. -/
def started (tr : List Obs) : Prop := Obs.startRet 0 ∈ tr

/-- No thread is told to stop. -/
def noStop (es : List Ev) : Prop := ∀ i, Ev.stop i ∉ es

/-- The startup of a thread succeeds, a request is waited for without other errors than `Timeout`, and `AddThread` succeeds. -/
def smooth (tr : List Obs) : Prop :=
  (∀ p i a, p ++ [Obs.returned i a] <+: tr →
    (lastCall i p = some .startup → a = 0) ∧ (lastCall i p = some .waitRequest → a = 0 ∨ a = 512)) ∧
  ∀ i e, Obs.addRet i e ∈ tr → e = 0

/-- The thread has left its loop: it is in `RemoveThread` or has ended. -/
def hasLeft : Pc → Bool
  | .removeTop _ | .removeGet _ | .removeDel | .gone => true
  | _ => false

/-- The event is a step of thread `i`. -/
def stepOf (i : Nat) : Ev → Bool
  | .thread j _ => j == i
  | _ => false

end Verif.Spec.MultiClient
