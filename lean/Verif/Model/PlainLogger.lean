/-!
# Model of the plain loggers and of their registration

`Scheduler/L4LoggerService/PlainLoggerService.cpp` and the routine that handles errors
(`BareMetal/L1Portability/Environment/Generic/ErrorManagement_Generic.cpp:130-186`).

Threads are numbered.  What is between `FastLock` and `FastUnLock` is one step (`FastMutex`, C09); so are the read of the size of
the list after the lock is released, the call of `SetErrorProcessFunction` that may follow, the read of the routine by
`ReportError`, and its call.  Loggers, consumers, functions and messages are numbers.

Simplifications: `FastLock` fails only if it never ends; the children of a logger do not change; a consumer either takes a
message or reports an error while it does (`noisy`); `StringHelper::CopyN` does not fail.
-/
namespace Verif.PlainLogger

/-- The routine that handles errors: `PlainLoggerErrorProcessFunction`, or another. -/
inductive Handler | plain | other (n : Nat)
deriving DecidableEq, Repr

/-- Where a thread is. -/
inductive Pc
  | idle
  /-- It has removed a logger from the list and released the lock (`PlainLoggerService.cpp:193`). -/
  | removed
  /-- It found that the list is empty (`PlainLoggerService.cpp:196`). -/
  | restore
  /-- It has messages to report: `ReportError` is called for each. -/
  | reports (ms : List Nat)
  /-- It has read the routine, which it is about to call for the first message. -/
  | calls (h : Handler) (m : Nat) (ms : List Nat)
  /-- It waits for a lock that is never released. -/
  | blocked
deriving DecidableEq, Repr

/-- What does not change: the children of each logger, those that are a `LoggerConsumerI`, and those that report an error when
they take a message. -/
structure Env where
  children : Nat → List Nat
  consumer : Nat → Bool
  noisy : Nat → Bool

structure St where
  /-- `plainLoggersList`. -/
  list : List Nat
  /-- `mux` is held for ever. -/
  locked : Bool
  /-- `ErrorManagement::errorMessageProcessFunction`. -/
  handler : Handler
  /-- `originalErrorMessageFunction`; `none` before the first call of `Instance`. -/
  original : Option Handler
  pc : Nat → Pc
  /-- What consumers took: the consumer and the message. -/
  taken : List (Nat × Nat)
  /-- What other routines were called with. -/
  others : List (Nat × Nat)
  /-- Loggers that do not exist any more. -/
  dead : List Nat
  /-- The memory of a logger that does not exist was used. -/
  crashed : Bool

/-- At the beginning the routine is some other one. -/
def start (h : Nat) : St := ⟨[], false, .other h, none, fun _ => .idle, [], [], [], false⟩

/-- `PLAINLOGGER_MAX_NO_OF_REGISTRABLE_LOGGERS` (`PlainLoggerService.h:47`). -/
def maxLoggers : Nat := 4

/-- The messages of the errors reported by the code itself. -/
def noConsumers : Nat := 0
def notConsumer : Nat := 1
def tooMany : Nat := 2
def cannotRegister : Nat := 3

def setPc (s : St) (t : Nat) (p : Pc) : St := { s with pc := fun u => if u = t then p else s.pc u }

/-- `PlainLoggerBinderSingleton::Instance` and the constructor (`PlainLoggerService.cpp:132-140`). -/
def instance_ (s : St) : St :=
  match s.original with
  | some _ => s
  | none => { s with original := some s.handler }

/-- `PlainLoggerService.cpp:143-175` `RegisterPlainLoggerService`, followed by the rest of `Initialise` (91-93). -/
def register (s : St) (t l : Nat) : St :=
  if s.locked then setPc s t .blocked
  else if s.list.length < maxLoggers then
    let list := s.list ++ [l]
    { s with list := list, handler := if list.length = 1 then .plain else s.handler }
  else setPc s t (.reports [tooMany, cannotRegister])

/-- `PlainLoggerService.cpp:60-97` `Initialise`. -/
def initialise (e : Env) (s : St) (t l : Nat) : St :=
  if e.children l = [] then setPc s t (.reports [noConsumers])
  else if (e.children l).all e.consumer then register (instance_ s) t l
  else setPc s t (.reports [notConsumer])

/-- `PlainLoggerService.cpp:183-192`: the first that is the same is removed. -/
def removeFirst (l : Nat) : List Nat → Option (List Nat)
  | [] => none
  | x :: xs => if x = l then some xs else (removeFirst l xs).map (x :: ·)

/-- `PlainLoggerService.cpp:120-125, 178-193` `Purge`, `UnRegisterPlainLoggerService` until the lock is released. -/
def purge (s0 : St) (t l : Nat) : St :=
  let s := instance_ s0
  if s.locked then setPc s t .blocked
  else
    match removeFirst l s.list with
    | some list => setPc { s with list := list } t .removed
    | none => s

/-- `PlainLoggerService.cpp:99-118` `Log`: the consumers take the message, until one reports an error: `true` if it does. -/
def log (e : Env) (m : Nat) : List Nat → Bool × List (Nat × Nat)
  | [] => (false, [])
  | c :: cs =>
    if e.noisy c then (true, [(c, m)])
    else
      let r := log e m cs
      (r.1, (c, m) :: r.2)

/-- `PlainLoggerService.cpp:204-212` `PropagateLog`, with the lock held.  A consumer that reports an error calls
`PropagateLog` again, which waits for the lock that this thread holds. -/
def propagate (e : Env) (m : Nat) (t : Nat) (ms : List Nat) (s : St) : List Nat → St
  | [] => setPc s t (.reports ms)
  | l :: ls =>
    if s.dead.contains l then { s with crashed := true }
    else
      let r := log e m (e.children l)
      let s := { s with taken := s.taken ++ r.2 }
      if r.1 then setPc { s with locked := true } t .blocked else propagate e m t ms s ls

/-- One step of a thread that is not idle. -/
def advance (e : Env) (s : St) (t : Nat) : St :=
  match s.pc t with
  | .idle => s
  | .blocked => s
  | .removed => if s.list.length = 0 then setPc s t .restore else setPc s t .idle
  | .restore => setPc { s with handler := s.original.getD .plain } t .idle
  | .reports [] => setPc s t .idle
  | .reports (m :: ms) => setPc s t (.calls s.handler m ms)
  | .calls (.other n) m ms => setPc { s with others := s.others ++ [(n, m)] } t (.reports ms)
  | .calls .plain m ms =>
    let s := instance_ s
    if s.locked then setPc s t .blocked else propagate e m t ms s s.list

/-- What can happen: a thread initialises or purges a logger, reports a message, sets the routine
(`SetErrorProcessFunction`), or goes on; a logger is destroyed (`PlainLoggerService.cpp:53-58`). -/
inductive Ev
  | initialise (t l : Nat)
  | purge (t l : Nat)
  | report (t m : Nat)
  | set (t h : Nat)
  | destroy (l : Nat)
  | go (t : Nat)
deriving DecidableEq, Repr

/-- A thread that is not idle does not begin anything else. -/
def step (e : Env) (s : St) (v : Ev) : St :=
  if s.crashed then s
  else
    match v with
    | .initialise t l => if s.pc t = .idle then initialise e s t l else s
    | .purge t l => if s.pc t = .idle then purge s t l else s
    | .report t m => if s.pc t = .idle then setPc s t (.reports [m]) else s
    | .set t h => if s.pc t = .idle then { s with handler := .other h } else s
    | .destroy l => { s with dead := l :: s.dead }
    | .go t => advance e s t

def run (e : Env) (s : St) : List Ev → St
  | [] => s
  | v :: vs => run e (step e s v) vs

end Verif.PlainLogger
