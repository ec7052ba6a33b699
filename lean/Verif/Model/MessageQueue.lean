/-!
# Model of `Scheduler/L4Messages/QueueingMessageFilter.cpp`

Transition system.  A step is one access to the shared state: taking or releasing `mutexSemQ` (a mutual exclusion lock,
C22; `FastLock` without timeout), one operation on the list `messageQ` (C02, C06) and one operation on the event
semaphore `newMessagesAlarm` (C42).  `Insert`, `Post` and `Reset` succeed.  Messages are identified by their address; the
same message may be queued several times.
-/
namespace Verif.MsgQ

inductive PC where
  | idle
  /-- `QueueingMessageFilter.cpp:58` -/
  | pLock (m : Nat)
  /-- line 60 -/
  | pInsert (m : Nat)
  /-- lines 63-64 -/
  | pSize
  /-- line 65 -/
  | pPost
  /-- line 68 -/
  | pUnlock
  /-- line 75 -/
  | cLock
  /-- line 79 -/
  | cSize
  /-- line 81 -/
  | cReset
  /-- line 84 -/
  | cUnlockW
  /-- line 88 -/
  | cWait
  /-- line 91 -/
  | cLock2
  /-- lines 97-99 -/
  | cGet
  /-- lines 102-104 -/
  | cDelete (m : Nat)
  /-- line 110, after success -/
  | cUnlockOk (m : Nat)
  /-- line 110, after `fatalError` -/
  | cUnlockFail
deriving DecidableEq

structure State where
  lock : Option Nat
  queue : List Nat
  posted : Bool
  pc : Nat → PC

/-- Calls and steps: `ConsumeMessage(m)` and `GetMessage` are called by a thread; a thread makes a step; the wait of a
thread ends because its timeout expires; the wait of a thread ends although the event is not posted (spurious wakeup,
which `EventSem` lets through: see C42). -/
inductive Ev where
  | consume (t m : Nat)
  | get (t : Nat)
  | step (t : Nat)
  | timeout (t : Nat)
  | spurious (t : Nat)

/-- What can be observed: a message enters the queue; `GetMessage` returns a message, an error, a timeout. -/
inductive Obs where
  | accepted (m : Nat)
  | delivered (t m : Nat)
  | failed (t : Nat)
  | timedOut (t : Nat)
deriving DecidableEq

def State.goto (s : State) (t : Nat) (p : PC) : State := { s with pc := fun u => if u = t then p else s.pc u }

/-- One step of a thread; `none` if it is blocked. -/
def stepT (s : State) (t : Nat) : Option (State × List Obs) :=
  match s.pc t with
  | .idle => none
  | .pLock m => if s.lock = none then some ({ s.goto t (.pInsert m) with lock := some t }, []) else none
  | .pInsert m => some ({ s.goto t .pSize with queue := s.queue ++ [m] }, [.accepted m])
  | .pSize => some (s.goto t (if s.queue.length = 1 then .pPost else .pUnlock), [])
  | .pPost => some ({ s.goto t .pUnlock with posted := true }, [])
  | .pUnlock => some ({ s.goto t .idle with lock := none }, [])
  | .cLock => if s.lock = none then some ({ s.goto t .cSize with lock := some t }, []) else none
  | .cSize => some (s.goto t (if s.queue.length = 0 then .cReset else .cGet), [])
  | .cReset => some ({ s.goto t .cUnlockW with posted := false }, [])
  | .cUnlockW => some ({ s.goto t .cWait with lock := none }, [])
  | .cWait => if s.posted then some (s.goto t .cLock2, []) else none
  | .cLock2 => if s.lock = none then some ({ s.goto t .cGet with lock := some t }, []) else none
  | .cGet => some (s.goto t (match s.queue[0]? with | some m => .cDelete m | none => .cUnlockFail), [])
  | .cDelete m => some ({ s.goto t (.cUnlockOk m) with queue := s.queue.erase m }, [])
  | .cUnlockOk m => some ({ s.goto t .idle with lock := none }, [.delivered t m])
  | .cUnlockFail => some ({ s.goto t .idle with lock := none }, [.failed t])

def step (s : State) : Ev → Option (State × List Obs)
  | .consume t m => if s.pc t = .idle then some (s.goto t (.pLock m), []) else none
  | .get t => if s.pc t = .idle then some (s.goto t .cLock, []) else none
  | .step t => stepT s t
  | .timeout t => if s.pc t = .cWait then some (s.goto t .idle, [.timedOut t]) else none
  | .spurious t => if s.pc t = .cWait then some (s.goto t .cLock2, []) else none

/-- `QueueingMessageFilter.cpp:43-50`: constructor. -/
def init : State := ⟨none, [], false, fun _ => .idle⟩

/-- A schedule: every event must be possible. Result: last state and the observations. -/
def run : State → List Ev → Option (State × List Obs)
  | s, [] => some (s, [])
  | s, e :: es => (step s e).bind fun r => (run r.1 es).map fun q => (q.1, r.2 ++ q.2)

end Verif.MsgQ
