/-!
# Model of `BareMetal/L1Portability/FastPollingMutexSem.cpp`

Any number of threads, each executing one call at a time; one step of the transition system is one access to the shared
flag or one reading of the clock.  Sleeping between polls is not modelled: any number of steps of other threads may
happen between two steps of one thread.
-/
namespace Verif.FastMutex

/-- What the callers can observe. -/
inductive Obs where
  /-- the call of `FastLock` or `FastTryLock` by thread `t` succeeded -/
  | acquired (t : Nat)
  /-- `FastLock` called by `t` at `start` with a timeout of `ticks` returned `Timeout` at time `now` -/
  | timedOut (t start ticks now : Nat)
  /-- `FastTryLock` returned false -/
  | busy (t : Nat)
  /-- `FastUnLock` -/
  | released (t : Nat)
deriving DecidableEq, Repr

/-- Where a thread is. -/
inductive PC where
  | idle
  /-- about to execute `TestAndSet` (line 81); the timeout (none: infinite), when the call started, `ticksStop` -/
  | poll (timeout : Option Nat) (start ticksStop : Nat)
  /-- `TestAndSet` failed, about to check the time (lines 82-89) -/
  | check (timeout : Option Nat) (start ticksStop : Nat)
deriving DecidableEq, Repr

structure State where
  flag : Bool
  clock : Nat
  pc : Nat → PC
  trace : List Obs

/-- `FastPollingMutexSem.cpp:46-63` a semaphore just created unlocked. -/
def init (clock : Nat) : State := ⟨false, clock, fun _ => .idle, []⟩

/-- One step: a call made by an idle thread, the next step of a call, or the passing of time. -/
inductive Ev where
  | lock (t : Nat) (timeout : Option Nat)
  | tryLock (t : Nat)
  | unlock (t : Nat)
  | run (t : Nat)
  | tick (n : Nat)
deriving DecidableEq, Repr

def State.goto (s : State) (t : Nat) (p : PC) : State := { s with pc := fun u => if u = t then p else s.pc u }

def step (s : State) : Ev → State
  | .tick n => { s with clock := s.clock + n }
  -- lines 71-79: `ticksStop` is a `uint64`
  | .lock t timeout =>
    if s.pc t = .idle then s.goto t (.poll timeout s.clock ((timeout.getD 0 + s.clock) % 2 ^ 64)) else s
  -- lines 98-100
  | .tryLock t =>
    if s.pc t = .idle then
      if !s.flag then { s with flag := true, trace := s.trace ++ [.acquired t] }
      else { s with trace := s.trace ++ [.busy t] }
    else s
  -- lines 102-104
  | .unlock t =>
    if s.pc t = .idle then { s with flag := false, trace := s.trace ++ [.released t] } else s
  | .run t =>
    match s.pc t with
    | .idle => s
    -- line 81, `AtomicA.h:111-126` `TestAndSet` sets the flag and succeeds if it was clear
    | .poll timeout start stop =>
      if !s.flag then { s.goto t .idle with flag := true, trace := s.trace ++ [.acquired t] }
      else s.goto t (.check timeout start stop)
    -- lines 82-89
    | .check timeout start stop =>
      match timeout with
      | none => s.goto t (.poll timeout start stop)
      | some ticks =>
        if s.clock > stop then { s.goto t .idle with trace := s.trace ++ [.timedOut t start ticks s.clock] }
        else s.goto t (.poll timeout start stop)

end Verif.FastMutex
