/-!
# Model of `Scheduler/L3Services/MultiClientService.cpp` and `MultiClientEmbeddedThread.cpp`

The threads of a service for several clients, the pool that holds them, and the owner that calls `Start` and tells threads
to stop.  One step is one operation on the pool (`ReferenceContainer` protects each with its own semaphore, but not
`AddThread` and `RemoveThread` as a whole), one access to a command, one entry in the callback or one return from it.  The
steps of the threads interleave in any order.

Simplifications: a thread and its entry in the pool are known by the same number, `RemoveThread` compares these numbers;
the waiting of `Stop` is not modelled, only the command it gives (see `EmbeddedThread`); priorities, names and thread
numbers are not modelled.
-/
namespace Verif.MultiClient

/-- `ExecutionInfo.h:54-98`: stage and stage specific part, as the callback sees them. -/
inductive Phase where
  | startup | waitRequest | serviceRequest | termination | badTermination
deriving DecidableEq, Repr

/-- `EmbeddedThreadI.h:93-112` -/
inductive Command where
  | start | keepRunning | stop
deriving DecidableEq, Repr

/-- `ErrorType.h:59`, `88`, `112`, `160` -/
def fatalError : Nat := 1
def illegalOperation : Nat := 32
def timeout : Nat := 512
def completed (e : Nat) : Bool := e.testBit 17

/-- What can be observed. -/
inductive Obs where
  | called (w : Nat) (p : Phase)
  | returned (w : Nat) (answer : Nat)
  /-- `Start` returned -/
  | startRet (err : Nat)
  /-- `AddThread`, called by thread `w`, returned -/
  | addRet (w : Nat) (err : Nat)
deriving DecidableEq, Repr

/-- Where a thread is; line numbers of `MultiClientEmbeddedThread.cpp`. -/
inductive Pc where
  /-- line 54 -/
  | created
  /-- line 63, with `moreThanEnoughtThreads` -/
  | outer (enough : Bool)
  /-- line 66 -/
  | startTest
  | startupIn
  /-- line 72 -/
  | loop
  /-- line 82 -/
  | waitLoop
  | waitIn
  /-- line 88 -/
  | afterWait
  /-- lines 89, 91-102, 106 of `MultiClientService.cpp` -/
  | addSize
  | addStart
  | addInsert (t : Nat)
  /-- line 98 -/
  | service
  | serviceIn
  /-- lines 107-114 -/
  | endCall
  | endIn
  /-- line 119 -/
  | enough
  /-- lines 117, 118-119, 121 of `MultiClientService.cpp` -/
  | removeTop (i : Nat)
  | removeGet (i : Nat)
  | removeDel
  | gone
deriving DecidableEq, Repr

structure T where
  pc : Pc
  cmd : Command
  err : Nat
deriving DecidableEq, Repr

/-- Where the owner is in `Start`: lines 147, 149, 150-158, 161 of `MultiClientService.cpp`. -/
inductive OPc where
  | idle
  | startSize
  | startLoop
  | startBegin
  | startInsert (t : Nat)
deriving DecidableEq, Repr

structure State where
  min : Nat
  max : Nat
  pool : List Nat
  /-- number of threads created -/
  n : Nat
  ts : Nat → T
  own : OPc
  /-- an invalid reference was used -/
  crashed : Bool
  trace : List Obs

def T.none : T := ⟨.gone, .stop, 0⟩

/-- `MultiClientService.cpp:50-54`, and what the setters made of the limits. -/
def init (min max : Nat) : State := ⟨min, max, [], 0, fun _ => T.none, .idle, false, []⟩

/-- `MultiClientService.cpp:56-85` the limits that are read; the result says whether they are accepted. -/
def initialise (min max : Nat) : Bool := !(max ≤ min) && !(min == 0)

/-- `MultiClientService.cpp:176-185` -/
def setMax (s : State) (v : Nat) : State :=
  if s.pool.length = 0 then if v > s.min then { s with max := v } else s else s

/-- `MultiClientService.cpp:187-198` -/
def setMin (s : State) (v : Nat) : State :=
  if s.pool.length = 0 then if s.max > v then if v > 0 then { s with min := v } else s else s else s

inductive Ev where
  /-- the owner calls `Start` -/
  | callStart
  /-- `Start` makes its next step; `a`: non zero if the thread cannot be created -/
  | own (a : Nat)
  /-- the owner gives the command to stop to thread `w` (`EmbeddedThreadI.cpp:223`) -/
  | stop (w : Nat)
  /-- thread `w` makes its next step; `a`: what the callback returns, or non zero if a thread cannot be created -/
  | thread (w : Nat) (a : Nat)
deriving DecidableEq, Repr

def State.log (s : State) (o : Obs) : State := { s with trace := s.trace ++ [o] }

def State.setT (s : State) (i : Nat) (t : T) : State := { s with ts := fun j => if j = i then t else s.ts j }

/-- `EmbeddedThreadI.cpp:190-213` called on a new object -/
def State.newThread (s : State) : State := { s with n := s.n + 1 }.setT s.n ⟨.created, .start, 0⟩

/-- `threadPool.Insert(thread)` -/
def State.insert (s : State) (t : Nat) : State := { s with pool := s.pool ++ [t] }

/-- `MultiClientService.h:202-204` -/
def State.moreThanEnough (s : State) : Bool := s.pool.length > s.min

/-- `MultiClientService.cpp:145-166` -/
def ownStep (s : State) (a : Nat) : State :=
  match s.own with
  | .idle => s
  -- line 147
  | .startSize =>
    if s.pool.length > 0 then { s.log (.startRet illegalOperation) with own := .idle } else { s with own := .startLoop }
  -- line 149
  | .startLoop =>
    if s.pool.length < s.min then { s with own := .startBegin } else { s.log (.startRet 0) with own := .idle }
  -- lines 150-158
  | .startBegin =>
    if a = 0 then { s.newThread with own := .startInsert s.n } else { s.log (.startRet fatalError) with own := .idle }
  -- line 161
  | .startInsert t => { s.insert t with own := .startLoop }

/-- `MultiClientEmbeddedThread.cpp:53-125` with `MultiClientService.cpp:87-127` -/
def threadStep (s : State) (i : Nat) (a : Nat) : State :=
  let t := s.ts i
  match t.pc with
  -- line 54
  | .created => s.setT i { t with cmd := .keepRunning, pc := .outer false }
  -- line 63
  | .outer enough => s.setT i { t with pc := if t.cmd = .keepRunning && !enough then .startTest else .removeTop 0 }
  -- lines 64-67
  | .startTest =>
    if t.cmd = .keepRunning then (s.setT i { t with pc := .startupIn }).log (.called i .startup)
    else s.setT i { t with pc := .loop }
  | .startupIn => (s.setT i { t with pc := .loop, err := a }).log (.returned i a)
  -- lines 71-77
  | .loop =>
    if t.cmd = .keepRunning && t.err == 0 then s.setT i { t with pc := .waitLoop, err := timeout }
    else s.setT i { t with pc := .endCall }
  -- lines 81-83
  | .waitLoop =>
    if t.cmd = .keepRunning && t.err == timeout then
      (s.setT i { t with pc := .waitIn }).log (.called i .waitRequest)
    else s.setT i { t with pc := .afterWait }
  | .waitIn => (s.setT i { t with pc := .waitLoop, err := a }).log (.returned i a)
  -- lines 87-88
  | .afterWait => s.setT i { t with pc := if t.cmd = .keepRunning && t.err == 0 then .addSize else .loop }
  -- `MultiClientService.cpp:89`
  | .addSize =>
    if s.pool.length ≥ s.max then (s.setT i { t with pc := .service }).log (.addRet i illegalOperation)
    else s.setT i { t with pc := .addStart }
  -- `MultiClientService.cpp:91-103`
  | .addStart =>
    if a = 0 then s.newThread.setT i { t with pc := .addInsert s.n }
    else (s.setT i { t with pc := .service }).log (.addRet i fatalError)
  -- `MultiClientService.cpp:106`
  | .addInsert k => ((s.insert k).setT i { t with pc := .service }).log (.addRet i 0)
  -- line 98
  | .service =>
    if t.cmd = .keepRunning && t.err == 0 then (s.setT i { t with pc := .serviceIn }).log (.called i .serviceRequest)
    else s.setT i { t with pc := .loop }
  | .serviceIn => (s.setT i { t with pc := .service, err := a }).log (.returned i a)
  -- lines 107-114
  | .endCall =>
    (s.setT i { t with pc := .endIn }).log (.called i (if completed t.err then .termination else .badTermination))
  | .endIn => (s.setT i { t with pc := .enough, err := a }).log (.returned i a)
  -- line 119
  | .enough => s.setT i { t with pc := .outer s.moreThanEnough }
  -- `MultiClientService.cpp:117`
  | .removeTop k => s.setT i { t with pc := if k < s.pool.length then .removeGet k else .gone }
  -- `MultiClientService.cpp:118-119`: the reference is not valid if the pool has become shorter
  | .removeGet k =>
    match s.pool[k]? with
    | none => { s with crashed := true }
    | some j => s.setT i { t with pc := if j = i then .removeDel else .removeTop (k + 1) }
  -- `MultiClientService.cpp:121`
  | .removeDel => { s with pool := s.pool.erase i }.setT i { t with pc := .gone }
  | .gone => s

def step (s : State) (e : Ev) : State :=
  if s.crashed then s else
  match e with
  | .callStart => if s.own = .idle then { s with own := .startSize } else s
  | .own a => ownStep s a
  | .stop i => s.setT i { s.ts i with cmd := .stop }
  | .thread i a => threadStep s i a

def run (s : State) (es : List Ev) : State := es.foldl step s

end Verif.MultiClient
