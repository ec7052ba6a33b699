/-!
# Model of `Scheduler/L1Portability/Environment/Linux/MutexSem.cpp`

Any number of threads, each executing one call at a time, on objects that share one handle.  A step is one access to the
handle or one operation on the mutex of the system.  `Create`, the copy and the destructor are critical sections
(`referencesMux`) and are one step each.  The mutex of the system is that of POSIX: what POSIX leaves undefined is `none`
(a mutex that is not initialised, initialised twice or destroyed in use, and a normal mutex unlocked by another thread).
-/
namespace Verif.OsMutex

/-- A `pthread_mutex_t` that is initialised. -/
structure Mutex where
  owner : Option Nat
  /-- how many times the owner has locked it -/
  count : Nat
  recursive : Bool
deriving DecidableEq, Repr

/-- Where a thread is. -/
inductive PC where
  | idle
  /-- in `Lock`, before `pthread_mutex_lock` or `pthread_mutex_timedlock` -/
  | enter (timed : Bool)
  /-- blocked in them -/
  | blocked (timed : Bool)
  /-- in `UnLock`, before `pthread_mutex_unlock` -/
  | leave
deriving DecidableEq, Repr

/-- What the callers can observe. -/
inductive Obs where
  /-- `Create` returned this -/
  | created (recursive ok : Bool)
  | closed
  /-- `Lock` returned `NoError` -/
  | locked (t : Nat)
  /-- `Lock` returned `Timeout` -/
  | timedOut (t : Nat)
  /-- `Lock` returned `FatalError` -/
  | refused (t : Nat)
  /-- `UnLock` returned true, false -/
  | unlocked (t : Nat)
  | notUnlocked (t : Nat)
deriving DecidableEq, Repr

/-- `MutexSem.cpp:48-81` the properties behind the handle, and the threads. -/
structure State where
  closed : Bool
  recursive : Bool
  mutex : Option Mutex
  references : Nat
  /-- the handle was deleted -/
  deleted : Bool
  /-- `pthread_setcancelstate`: a thread can be cancelled -/
  cancellable : Nat → Bool
  pc : Nat → PC
  trace : List Obs

/-- `MutexSem.cpp:83-92` the constructor. -/
def init : State := ⟨true, false, none, 1, false, fun _ => true, fun _ => .idle, []⟩

inductive Ev where
  /-- `Create`; `ok` is what the calls of the system answer -/
  | create (recursive ok : Bool)
  | close
  /-- the copy constructor, the destructor -/
  | copy
  | destroy
  | lock (t : Nat) (timed : Bool)
  | unlock (t : Nat)
  /-- the next step of the call in progress -/
  | run (t : Nat)
  /-- the time of a blocked thread is over -/
  | expire (t : Nat)
deriving DecidableEq, Repr

def State.goto (s : State) (t : Nat) (p : PC) : State := { s with pc := fun u => if u = t then p else s.pc u }
def State.emit (s : State) (o : Obs) : State := { s with trace := s.trace ++ [o] }
def State.cancel (s : State) (t : Nat) (b : Bool) : State := { s with cancellable := fun u => if u = t then b else s.cancellable u }

/-- POSIX `pthread_mutex_lock`: the mutex afterwards if the thread need not wait. -/
def Mutex.acquire (m : Mutex) (t : Nat) : Option Mutex :=
  match m.owner with
  | none => some { m with owner := some t, count := 1 }
  | some o => if o = t ∧ m.recursive = true then some { m with count := m.count + 1 } else none

/-- POSIX `pthread_mutex_unlock`: `none` is undefined, `some none` is `EPERM`. -/
def Mutex.release (m : Mutex) (t : Nat) : Option (Option Mutex) :=
  if m.owner = some t then
    some (some (if m.count ≤ 1 then { m with owner := none, count := 0 } else { m with count := m.count - 1 }))
  else if m.recursive then some none
  else none

/-- `MutexSem.cpp:178-197` `Close`; POSIX: a mutex that is locked or that a thread is locking cannot be destroyed. -/
def close (s : State) : Option State :=
  if s.closed then some (s.emit .closed)
  else
    match s.mutex with
    | none => none
    | some m => if m.owner = none then some ({ s with closed := true, mutex := none }.emit .closed) else none

/-- `MutexSem.cpp:199-216` and `224-269` (not the clock): `pthread_mutex_lock` and `pthread_mutex_timedlock`. -/
def tryLock (s : State) (t : Nat) (timed : Bool) : Option State :=
  match s.mutex with
  | none => none
  | some m =>
    match m.acquire t with
    | some m' => some (({ s with mutex := some m' }.goto t .idle).emit (.locked t))
    | none => some (s.goto t (.blocked timed))

def step (s : State) (e : Ev) : Option State :=
  if s.deleted then none
  else
  match e with
  -- `MutexSem.cpp:132-176` `Create`: `closed` is cleared first
  | .create recursive ok =>
    if ok then
      if s.mutex.isSome then none
      else some ({ s with closed := false, recursive := recursive, mutex := some ⟨none, 0, recursive⟩ }.emit (.created recursive true))
    else some ({ s with closed := false, recursive := recursive }.emit (.created recursive false))
  | .close => close s
  -- `MutexSem.cpp:94-108`
  | .copy => some { s with references := s.references + 1 }
  -- `MutexSem.cpp:110-130`
  | .destroy =>
    if s.references = 1 then
      if s.closed then some { s with deleted := true }
      else (close s).map fun s => { s with deleted := true }
    else some { s with references := s.references - 1 }
  -- `MutexSem.cpp:200-202` and `225-231`: cancellation is disabled only without a timeout
  | .lock t timed =>
    if s.pc t = .idle then
      if s.closed then some (s.emit (.refused t))
      else some ((if timed then s else s.cancel t false).goto t (.enter timed))
    else some s
  -- `MutexSem.cpp:273-274`
  | .unlock t =>
    if s.pc t = .idle then
      if s.closed then some (s.emit (.notUnlocked t)) else some (s.goto t .leave)
    else some s
  | .run t =>
    match s.pc t with
    | .idle => some s
    | .enter timed => tryLock s t timed
    | .blocked timed => tryLock s t timed
    -- `MutexSem.cpp:276-291`
    | .leave =>
      match s.mutex with
      | none => none
      | some m =>
        match m.release t with
        | none => none
        | some none => some ((s.goto t .idle).emit (.notUnlocked t))
        | some (some m') => some ((({ s with mutex := some m' }.cancel t true).goto t .idle).emit (.unlocked t))
  -- `MutexSem.cpp:249-253`
  | .expire t =>
    match s.pc t with
    | .blocked true => some ((s.goto t .idle).emit (.timedOut t))
    | _ => some s

/-- A schedule; `none` if something undefined happens. -/
def run (s : State) : List Ev → Option State
  | [] => some s
  | e :: es => (step s e).bind (run · es)

/-- `MutexSem.cpp:233-247` the deadline given to the system for `usec` microseconds, `now` being the seconds and microseconds
of `gettimeofday`; `rnd` is the rounding of `float64`.  The conversion to `int32` of a number that does not fit is
undefined. -/
def deadline (rnd : Rat → Rat) (usec : Nat) (now : Nat × Nat) : Option (Int × Int) :=
  let sec := rnd (rnd (rnd (rnd usec + rnd now.2) * rnd (1 / 1000000)) + rnd now.1)
  let round := sec.floor
  let nSec := rnd (rnd (sec - round) * 1000000000)
  if round < 2 ^ 31 then some (round, nSec.floor) else none

end Verif.OsMutex
