/-!
# Model of `Scheduler/L1Portability/Environment/Linux/EventSem.cpp` and `Scheduler/L1Portability/CountingSem.cpp`

Any number of threads, each executing one call at a time on one created semaphore.  A critical section protected by the
pthread mutex, or by the `FastPollingMutexSem` of the counting semaphore (see `FastMutex`), is one atomic step; the
other accesses are steps of their own.  The pthread condition variable is the set of threads that sleep on it;
`broadcast` wakes them all.  What POSIX allows besides, a spurious wakeup and the failure of `pthread_mutex_timedlock`,
are separate events.
-/
namespace Verif.EventSem

/-- Where a thread is. -/
inductive PC where
  | idle
  /-- in `Wait`, before locking the mutex -/
  | wait (timed : Bool)
  /-- inside `pthread_cond_wait` -/
  | asleep (timed : Bool)
  /-- woken by a broadcast, has to lock the mutex again and return -/
  | woken
  /-- in `Post`, before locking the mutex; whether it was called by `WaitForAll` -/
  | post (all : Bool)
  /-- in `Post`, mutex unlocked, before the broadcast -/
  | broadcast (all : Bool)
  /-- in `ForceReset`, counter cleared, before `EventSem::Reset` -/
  | resetting
deriving DecidableEq, Repr

/-- What the callers can observe. -/
inductive Obs where
  /-- `Wait` called -/
  | waitBegin (t : Nat)
  /-- `WaitForAll` called (counted) -/
  | arrived (t : Nat)
  /-- `Wait` or `WaitForAll` returned `NoError` -/
  | waitOk (t : Nat)
  /-- it returned `Timeout` -/
  | waitTimeout (t : Nat)
  /-- `Post` called / returned -/
  | postBegin (t : Nat)
  | postEnd (t : Nat)
  /-- `ForcePass` called -/
  | forced (t : Nat)
  /-- the semaphore was reset (a `Reset`, `ForceReset` that returned true) -/
  | resetDone (t : Nat)
deriving DecidableEq, Repr

structure State where
  /-- `numberOfActors` -/
  actors : Nat
  counter : Nat
  stop : Bool
  pcs : List PC
  trace : List Obs
deriving DecidableEq, Repr

/-- `EventSem.cpp:122-147`, `CountingSem.cpp:44-62` a created semaphore used by `threads` threads. -/
def init (threads actors : Nat) : State := ⟨actors, 0, true, List.replicate threads .idle, []⟩

inductive Ev where
  | wait (t : Nat) (timed : Bool)
  | post (t : Nat)
  | reset (t : Nat)
  | waitForAll (t : Nat) (timed : Bool)
  | csReset (t : Nat)
  | forceReset (t : Nat)
  | forcePass (t : Nat)
  /-- the next step of the call in progress -/
  | run (t : Nat)
  /-- the timeout of a sleeping thread expires -/
  | expire (t : Nat)
  /-- POSIX: a sleeping thread may wake up although nobody signalled -/
  | spurious (t : Nat)
  /-- `pthread_mutex_timedlock` times out because the mutex is busy -/
  | lockExpired (t : Nat)
deriving DecidableEq, Repr

def State.goto (s : State) (t : Nat) (p : PC) : State := { s with pcs := s.pcs.set t p }
def State.emit (s : State) (o : Obs) : State := { s with trace := s.trace ++ [o] }

/-- A broadcast: every sleeping thread wakes up. -/
def wakeAll (pcs : List PC) : List PC := pcs.map fun p => match p with | .asleep _ => .woken | p => p

def step (s : State) (e : Ev) : State :=
  match e with
  -- `EventSem.cpp:180-281` `Wait`
  | .wait t timed => if s.pcs[t]? = some .idle then (s.goto t (.wait timed)).emit (.waitBegin t) else s
  -- `EventSem.cpp:285-296` `Post`
  | .post t => if s.pcs[t]? = some .idle then (s.goto t (.post false)).emit (.postBegin t) else s
  -- `EventSem.cpp:299-308` `Reset`
  | .reset t => if s.pcs[t]? = some .idle then { s with stop := true }.emit (.resetDone t) else s
  -- `CountingSem.cpp:64-83` `WaitForAll`: the critical section, then `Post` or `Wait`
  | .waitForAll t timed =>
    if s.pcs[t]? = some .idle then
      let counter := s.counter + 1
      let condition := counter = s.actors
      let counter' := if counter > s.actors then s.actors else counter
      ({ s with counter := counter' }.goto t (if condition then .post true else .wait timed)).emit (.arrived t)
    else s
  -- `CountingSem.cpp:85-95` `Reset`
  | .csReset t =>
    if s.pcs[t]? = some .idle then
      if s.counter ≥ s.actors then { s with counter := 0, stop := true }.emit (.resetDone t) else s
    else s
  -- `CountingSem.cpp:98-104` `ForceReset`
  | .forceReset t => if s.pcs[t]? = some .idle then { s with counter := 0 }.goto t .resetting else s
  -- `CountingSem.cpp:106-112` `ForcePass`
  | .forcePass t =>
    if s.pcs[t]? = some .idle then ({ s with counter := s.actors }.goto t (.post false)).emit (.forced t) else s
  | .run t =>
    match s.pcs[t]? with
    -- lines 191-193, 243-251: `if (stop) pthread_cond_wait`
    | some (.wait timed) => if s.stop then s.goto t (.asleep timed) else (s.goto t .idle).emit (.waitOk t)
    | some .woken => (s.goto t .idle).emit (.waitOk t)
    -- lines 288-290
    | some (.post all) => { s with stop := false }.goto t (.broadcast all)
    -- line 291
    | some (.broadcast all) =>
      ({ s with pcs := wakeAll s.pcs }.goto t .idle).emit (if all then .waitOk t else .postEnd t)
    | some .resetting => ({ s with stop := true }.goto t .idle).emit (.resetDone t)
    | _ => s
  | .expire t =>
    match s.pcs[t]? with
    | some (.asleep true) => (s.goto t .idle).emit (.waitTimeout t)
    | _ => s
  -- lines 191-208: the condition is not checked again after the wait
  | .spurious t =>
    match s.pcs[t]? with
    | some (.asleep _) => s.goto t .woken
    | _ => s
  -- lines 242-267: `err` is not set when `pthread_mutex_timedlock` fails
  | .lockExpired t =>
    match s.pcs[t]? with
    | some (.wait true) => (s.goto t .idle).emit (.waitOk t)
    | _ => s

def run (s : State) (es : List Ev) : State := es.foldl step s

end Verif.EventSem
