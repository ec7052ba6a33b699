/-!
# Model of `BareMetal/L1Portability/FastPollingEventSem.cpp`

Any number of threads, each executing one call at a time; one step is one access to the shared flag or one reading of the
clock.  Sleeping between polls is not modelled: any number of steps of other threads may happen between two steps of one
thread.
-/
namespace Verif.PollEvent

/-- What the callers can observe. -/
inductive Obs where
  /-- `FastWait` returned `NoError` -/
  | passed (t : Nat)
  /-- `FastWait`, whose clock was read at `start`, with a timeout of `ticks`, returned `Timeout` at time `now` -/
  | timedOut (t start ticks now : Nat)
  /-- `Create(wait)` -/
  | created (wait : Bool)
  /-- `FastPost`, `Reset` (also the one of `FastResetWait`) -/
  | posted (t : Nat)
  | lowered (t : Nat)
deriving DecidableEq, Repr

/-- Where a thread is. -/
inductive PC where
  | idle
  /-- `FastResetWait` after `Reset` -/
  | start (timeout : Option Nat)
  /-- about to read the flag (75); the timeout (none: infinite), when the clock was read, `ticksStop` -/
  | poll (timeout : Option Nat) (start ticksStop : Nat)
  /-- the flag was zero, about to check the time (76-81) -/
  | check (timeout : Option Nat) (start ticksStop : Nat)
deriving DecidableEq, Repr

structure State where
  flag : Bool
  clock : Nat
  pc : Nat → PC
  trace : List Obs

/-- `FastPollingEventSem.cpp:43-46` the constructor. -/
def init (clock : Nat) : State := ⟨false, clock, fun _ => .idle, []⟩

inductive Ev where
  | create (wait : Bool)
  | wait (t : Nat) (timeout : Option Nat)
  | resetWait (t : Nat) (timeout : Option Nat)
  | post (t : Nat)
  | reset (t : Nat)
  /-- the next step of the call in progress -/
  | run (t : Nat)
  | tick (n : Nat)
deriving DecidableEq, Repr

def State.goto (s : State) (t : Nat) (p : PC) : State := { s with pc := fun u => if u = t then p else s.pc u }
def State.emit (s : State) (o : Obs) : State := { s with trace := s.trace ++ [o] }

/-- `FastPollingEventSem.cpp:62-67`: `ticksStop` is a `uint64`. -/
def begin (s : State) (t : Nat) (timeout : Option Nat) : State :=
  s.goto t (.poll timeout s.clock ((timeout.getD 0 + s.clock) % 2 ^ 64))

def step (s : State) : Ev → State
  -- `FastPollingEventSem.cpp:53-60` `Create`
  | .create wait => { s with flag := !wait }.emit (.created wait)
  | .wait t timeout => if s.pc t = .idle then begin s t timeout else s
  -- `FastPollingEventSem.cpp:98-102` `FastResetWait`
  | .resetWait t timeout => if s.pc t = .idle then ({ s with flag := false }.goto t (.start timeout)).emit (.lowered t) else s
  -- `FastPollingEventSem.cpp:90-92` `FastPost`: `TestAndSet`
  | .post t => if s.pc t = .idle then { s with flag := true }.emit (.posted t) else s
  -- `FastPollingEventSem.cpp:94-96` `Reset`
  | .reset t => if s.pc t = .idle then { s with flag := false }.emit (.lowered t) else s
  | .run t =>
    match s.pc t with
    | .idle => s
    | .start timeout => begin s t timeout
    | .poll timeout start stop =>
      if s.flag then (s.goto t .idle).emit (.passed t) else s.goto t (.check timeout start stop)
    -- `FastPollingEventSem.cpp:76-85`
    | .check timeout start stop =>
      match timeout with
      | none => s.goto t (.poll timeout start stop)
      | some ticks =>
        if s.clock > stop then (s.goto t .idle).emit (.timedOut t start ticks s.clock)
        else s.goto t (.poll timeout start stop)
  | .tick n => { s with clock := s.clock + n }

def run (s : State) (es : List Ev) : State := es.foldl step s

end Verif.PollEvent
