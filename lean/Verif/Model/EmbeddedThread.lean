/-!
# Model of `Scheduler/L3Services/EmbeddedThreadI.cpp` and `EmbeddedThread.cpp`

One service thread object (`SingleThreadService` and `MultiThreadService` hold such objects), one thread that calls
`Start`, `Stop`, `GetStatus` and `SetTimeout` on it, one call at a time, and the threads created by `Start`.  One step of
the transition system is one access to what the threads share (command, thread identifier, data base of threads, clock),
one entry in the callback or one return from it.  The steps of the threads interleave in any order.

Simplifications: `FastLock` on the semaphore of the object succeeds, so that `SetCommands` and the test of lines 56-59 of `EmbeddedThread.cpp` are
one step each (see `FastMutex`); `GetStatus` reads the command once (the member is not volatile); a thread number, names,
priorities, processors and stack sizes are not modelled; sleeping between polls is any number of steps of the others.
`Threads.cpp` (Linux) is modelled by the membership in the data base of threads and by cancellation.
-/
namespace Verif.EmbeddedThread

/-- `EmbeddedThreadI.h:93-112` -/
inductive Command where
  | start | keepRunning | stop | kill
deriving DecidableEq, Repr

/-- `EmbeddedThreadI.h:117-161` -/
inductive Status where
  | off | starting | timeoutStarting | running | stopping | timeoutStopping | killing | timeoutKilling
deriving DecidableEq, Repr

/-- `ExecutionInfo.h:54-77` -/
inductive Stage where
  | startup | main | termination | badTermination | asyncTermination
deriving DecidableEq, Repr

/-- `ErrorType.h:544-546` -/
def errorsCleared (e : Nat) : Bool := e == 0

/-- `ErrorType.h:160` bit 17 -/
def completed (e : Nat) : Bool := e.testBit 17

/-- `ErrorType.h:59`, `88`, `112` the values returned by the calls. -/
def fatalError : Nat := 1
def illegalOperation : Nat := 32
def timeout : Nat := 512

/-- What can be observed: the calls of the callback, the results of the calls of the owner of the service. -/
inductive Obs where
  /-- thread `w` calls the callback with `stage` -/
  | called (w : Nat) (stage : Stage)
  /-- the callback called by thread `w` returns `answer` -/
  | returned (w : Nat) (answer : Nat)
  | startCall
  | startRet (err : Nat)
  | stopCall
  | stopRet (err : Nat)
  | statusRet (s : Status)
  /-- `Threads::Kill` was applied to thread `w` -/
  | killed (w : Nat)
  /-- the callback called by `Stop` itself (`AsyncTerminationStage`) -/
  | asyncCalled
deriving DecidableEq, Repr

/-- Where a thread created by `Start` is; line numbers of `EmbeddedThread.cpp`. -/
inductive WPc where
  /-- before line 56 -/
  | created
  /-- line 61: has read `StartCommand` and released the semaphore -/
  | willSet
  /-- line 67 -/
  | outer
  /-- line 69 -/
  | setId
  /-- lines 70-74 -/
  | startupCall
  | startupIn
  /-- line 80 -/
  | mainIf
  /-- line 84, with the value of `ok` -/
  | mainWhile (ok : Bool)
  /-- line 85 -/
  | mainCall
  | mainIn
  /-- lines 91-98 -/
  | endCall
  | endIn
  /-- the loop was left; `Threads.cpp:63-71` -/
  | exiting
  | gone
deriving DecidableEq, Repr

/-- A thread: its place, the last answer (`err`), whether the data base of threads has it, whether it was cancelled. -/
structure W where
  pc : WPc
  err : Nat
  inDb : Bool
  cancelled : Bool
deriving DecidableEq, Repr

/-- Why `GetStatus` was called. -/
inductive Why where
  /-- by the owner -/
  | user
  /-- `EmbeddedThreadI.cpp:194` -/
  | start
  /-- line 217 -/
  | stop
  /-- line 226 -/
  | stopWait
  /-- line 230 -/
  | stopEnd
  /-- line 243 -/
  | killWait
  /-- line 249 -/
  | killEnd
deriving DecidableEq, Repr

/-- Where the owner is; line numbers of `EmbeddedThreadI.cpp`. -/
inductive CPc where
  | idle
  /-- lines 142, 146, 150, 154, 157-184 of `GetStatus` -/
  | gId (y : Why)
  | gAlive (y : Why)
  | gReset (y : Why)
  | gCmd (y : Why)
  | gTime (y : Why) (c : Command)
  /-- lines 198, 201, 202, 204 of `Start` -/
  | startAlive
  | startCmd
  | startTime
  | startBegin
  | startId (w : Option Nat)
  /-- lines 223, 224, 232 of `Stop` -/
  | stopCmd
  | stopTime
  | stopReset
  /-- lines 237, 239, 250, 254-257, 261 of `Stop` -/
  | killCmd
  | killTime
  | killThread
  | asyncCall (err : Nat)
  | asyncIn (err : Nat)
  | killReset (err : Nat)
deriving DecidableEq, Repr

structure State where
  commands : Command
  threadId : Option Nat
  maxHRT : BitVec 32
  /-- `none` is the value -1, an infinite timeout -/
  timeoutHRT : Option Nat
  /-- the 64 bit counter -/
  clock : Nat
  /-- stage of the shared `information` -/
  stage : Stage
  /-- number of threads created, and the threads -/
  n : Nat
  ws : Nat → W
  ctl : CPc
  /-- memory was freed twice -/
  crashed : Bool
  trace : List Obs

def W.none : W := ⟨.gone, 0, false, false⟩

/-- `EmbeddedThreadI.cpp:57-69` -/
def init (clock : Nat) : State :=
  ⟨.stop, none, 0, none, clock, .startup, 0, fun _ => W.none, .idle, false, []⟩

/-- One event of a history. -/
inductive Ev where
  | tick (n : Nat)
  /-- the owner calls -/
  | callStart
  | callStop
  | callStatus
  | setTimeout (ticks : Option Nat)
  /-- the call of the owner makes its next step; `a`: whether `BeginThread` succeeds (non zero: no), what the callback
  called by `Stop` returns -/
  | ctl (a : Nat)
  /-- thread `w` makes its next step; `a`: what the callback returns -/
  | worker (w : Nat) (a : Nat)
  /-- a cancelled thread reaches a cancellation point and ends -/
  | cancel (w : Nat)
deriving DecidableEq, Repr

def State.goto (s : State) (p : CPc) : State := { s with ctl := p }

def State.log (s : State) (o : Obs) : State := { s with trace := s.trace ++ [o] }

def State.setW (s : State) (i : Nat) (w : W) : State := { s with ws := fun j => if j = i then w else s.ws j }

/-- `HighResolutionTimer::Counter32` -/
def State.counter (s : State) : BitVec 32 := BitVec.ofNat 32 s.clock

/-- `EmbeddedThreadI.cpp:159-160` a signed difference greater than zero, and a timeout that is not infinite.  The
overflow of the signed difference is taken to wrap. -/
def State.late (s : State) : Bool := (0 : BitVec 32).slt (s.counter - s.maxHRT) && s.timeoutHRT.isSome

/-- `EmbeddedThreadI.cpp:202` (and 224, 239) the deadline. -/
def State.deadline (s : State) : BitVec 32 :=
  s.counter + (match s.timeoutHRT with | none => BitVec.allOnes 32 | some t => BitVec.ofNat 32 t)

/-- `Threads.cpp:228-248` -/
def State.isAlive (s : State) (i : Option Nat) : Bool :=
  match i with
  | none => false
  | some j => (s.ws j).inDb

/-- `EmbeddedThreadI.cpp:110-114` -/
def State.resetThreadId (s : State) : State := if s.isAlive s.threadId then s else { s with threadId := none }

/-- `EmbeddedThreadI.cpp:116-132` -/
def clip (ticks : Option Nat) : Option Nat :=
  ticks.map fun t => if t < 0x7FFFFFFF then t else 0x7FFFFFFF

/-- What the caller of `GetStatus` does with the status. -/
def finish (s : State) (y : Why) (st : Status) : State :=
  match y with
  | .user => (s.log (.statusRet st)).goto .idle
  -- lines 194-196
  | .start => if st ≠ .off then (s.log (.startRet illegalOperation)).goto .idle else s.goto .startAlive
  -- lines 219, 222, 236, 263-265
  | .stop =>
    match st with
    | .off => (s.log (.stopRet 0)).goto .idle
    | .running | .starting | .timeoutStarting => s.goto .stopCmd
    | .timeoutStopping | .stopping => s.goto .killCmd
    | .killing | .timeoutKilling => (s.log (.stopRet illegalOperation)).goto .idle
  -- line 226
  | .stopWait => if st = .stopping then s.goto (.gId .stopWait) else s.goto (.gId .stopEnd)
  -- lines 230-233
  | .stopEnd => if st ≠ .off then (s.log (.stopRet timeout)).goto .idle else s.goto .stopReset
  -- line 243
  | .killWait => if st = .killing then s.goto (.gId .killWait) else s.goto (.gId .killEnd)
  -- line 249
  | .killEnd => if st ≠ .off then s.goto .killThread else s.goto (.asyncCall 0)

/-- `Threads.cpp:253-289` the entry is removed from the data base of threads and deleted, the thread is cancelled.  The
thread is detached (line 358), so that `pthread_join` fails and the function does not wait: line 281 takes the failure
for a success. -/
def killThread (s : State) : State :=
  match s.threadId with
  | none => s.goto (.asyncCall fatalError)
  | some j =>
    if (s.ws j).inDb then
      ((s.setW j { s.ws j with inDb := false, cancelled := true }).log (.killed j)).goto (.asyncCall 0)
    else s.goto (.asyncCall fatalError)

/-- The next step of the call that the owner is executing. -/
def ctlStep (s : State) (a : Nat) : State :=
  match s.ctl with
  | .idle => s
  -- line 142
  | .gId y => if s.threadId = none then finish s y .off else s.goto (.gAlive y)
  -- lines 146-148
  | .gAlive y => if s.isAlive s.threadId then s.goto (.gCmd y) else s.goto (.gReset y)
  -- lines 149-150
  | .gReset y => finish s.resetThreadId y .off
  -- line 155
  | .gCmd y => if s.commands = .keepRunning then finish s y .running else s.goto (.gTime y s.commands)
  -- lines 158-185
  | .gTime y c =>
    finish s y (match c, s.late with
      | .start, true => .timeoutStarting
      | .start, false => .starting
      | .stop, true => .timeoutStopping
      | .stop, false => .stopping
      | _, true => .timeoutKilling
      | _, false => .killing)
  -- line 198
  | .startAlive => if s.isAlive s.threadId then (s.log (.startRet illegalOperation)).goto .idle else s.goto .startCmd
  -- line 201
  | .startCmd => { s with commands := .start }.goto .startTime
  -- line 202
  | .startTime => { s with maxHRT := s.deadline }.goto .startBegin
  -- line 204, `Threads.cpp:292-401`
  | .startBegin =>
    if a = 0 then ({ s with n := s.n + 1 }.setW s.n ⟨.created, 0, true, false⟩).goto (.startId (some s.n))
    else s.goto (.startId none)
  -- lines 204-206
  | .startId w =>
    ({ s with threadId := w }.log (.startRet (if w = none then fatalError else 0))).goto .idle
  -- line 223
  | .stopCmd => { s with commands := .stop }.goto .stopTime
  -- line 224
  | .stopTime => { s with maxHRT := s.deadline }.goto (.gId .stopWait)
  -- line 232
  | .stopReset => (s.resetThreadId.log (.stopRet 0)).goto .idle
  -- line 237
  | .killCmd => { s with commands := .kill }.goto .killTime
  -- line 239
  | .killTime => { s with maxHRT := s.deadline }.goto (.gId .killWait)
  -- line 250
  | .killThread => killThread s
  -- lines 254-257
  | .asyncCall e => (s.log .asyncCalled).goto (.asyncIn e)
  -- lines 257-260
  | .asyncIn e => s.goto (.killReset (if errorsCleared a then e else a))
  -- lines 261, 267
  | .killReset e => (s.resetThreadId.log (.stopRet e)).goto .idle

/-- The next step of thread `i`: `EmbeddedThread.cpp:55-103`, then `Threads.cpp:63-71`. -/
def workerStep (s : State) (i : Nat) (a : Nat) : State :=
  let w := s.ws i
  match w.pc with
  -- lines 56-59
  | .created => s.setW i { w with pc := if s.commands = .start then .willSet else .outer }
  -- line 61
  | .willSet => { s with commands := .keepRunning }.setW i { w with pc := .outer }
  -- line 67
  | .outer => s.setW i { w with pc := if s.commands = .keepRunning then .setId else .exiting }
  -- line 69
  | .setId => { s with threadId := some i }.setW i { w with pc := .startupCall }
  -- lines 70-74
  | .startupCall => ({ s with stage := .startup }.setW i { w with pc := .startupIn }).log (.called i .startup)
  | .startupIn => (s.setW i { w with pc := .mainIf, err := a }).log (.returned i a)
  -- lines 80-83
  | .mainIf =>
    if s.commands = .keepRunning then { s with stage := .main }.setW i { w with pc := .mainWhile true }
    else s.setW i { w with pc := .endCall }
  -- line 84
  | .mainWhile ok => s.setW i { w with pc := if s.commands = .keepRunning && ok then .mainCall else .endCall }
  -- line 85
  | .mainCall => (s.setW i { w with pc := .mainIn }).log (.called i s.stage)
  -- lines 85-86
  | .mainIn => (s.setW i { w with pc := .mainWhile (errorsCleared a), err := a }).log (.returned i a)
  -- lines 91-98
  | .endCall =>
    let st := if completed w.err then Stage.termination else Stage.badTermination
    ({ s with stage := st }.setW i { w with pc := .endIn }).log (.called i st)
  | .endIn => (s.setW i { w with pc := .outer, err := a }).log (.returned i a)
  -- `Threads.cpp:63-71`: the description of the thread is deleted, even if `Kill` has already deleted it
  | .exiting => { s with crashed := !w.inDb }.setW i { w with pc := .gone, inDb := false }
  | .gone => s

def step (s : State) (e : Ev) : State :=
  if s.crashed then s else
  match e with
  | .tick n => { s with clock := s.clock + n }
  | .callStart => if s.ctl = .idle then (s.log .startCall).goto (.gId .start) else s
  | .callStop => if s.ctl = .idle then (s.log .stopCall).goto (.gId .stop) else s
  | .callStatus => if s.ctl = .idle then s.goto (.gId .user) else s
  | .setTimeout t => if s.ctl = .idle then { s with timeoutHRT := clip t } else s
  | .ctl a => ctlStep s a
  | .worker i a => workerStep s i a
  | .cancel i => if (s.ws i).cancelled then s.setW i { s.ws i with pc := .gone } else s

def run (s : State) (es : List Ev) : State := es.foldl step s

end Verif.EmbeddedThread
