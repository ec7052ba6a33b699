/-!
# Model of the settings of a service with one thread

`Source/Core/Scheduler/L3Services`: `SingleThreadService.cpp` with `EmbeddedServiceI.cpp`, and the part of `EmbeddedThreadI.cpp` that keeps the settings and starts
the thread.  A timeout is its number of ticks of the timer (`none` for the infinite one).  What the operating system answers comes with the operation.
-/
namespace Verif.ThreadSettings

inductive Class where
  | idle | normal | realTime
deriving DecidableEq, Repr

/-- `EmbeddedServiceI.h`, `EmbeddedThreadI.h`: the settings, which both the service and its thread have. -/
structure Settings where
  timeout : Option Nat
  cls : Class
  level : Nat
  cpu : Nat
  stack : Nat
deriving DecidableEq, Repr

/-- The service, the settings of its thread, and whether that is alive. -/
structure Service where
  own : Settings
  thread : Settings
  alive : Bool
deriving DecidableEq, Repr

/-- `EmbeddedServiceI.cpp:44-51`, `EmbeddedThreadI.cpp:57-69`; `cpu` and `stack` are the defaults of the platform. -/
def new (cpu stack : Nat) : Service := ⟨⟨none, .normal, 0, cpu, stack⟩, ⟨none, .normal, 0, cpu, stack⟩, false⟩

/-- `EmbeddedThreadI.cpp:138-152` `GetStatus`, as far as the setters look at it. -/
def off (s : Service) : Bool := !s.alive

/-- `EmbeddedThreadI.cpp:116-132` `SetTimeout` of the thread. -/
def ticks : Option Nat → Option Nat
  | none => none
  | some t => if t < 0x7FFFFFFF then some t else some 0x7FFFFFFF

/-- `SingleThreadService.cpp:77-80` `SetTimeout` -/
def setTimeout (t : Option Nat) (s : Service) : Service :=
  { s with own := { s.own with timeout := t }, thread := { s.thread with timeout := ticks t } }

/-- `SingleThreadService.cpp:82-90` `SetPriorityClass` (the thread, `EmbeddedThreadI.cpp` `SetPriorityClass`, looks at the status again). -/
def setClass (x : Class) (s : Service) : Service :=
  if off s then
    let s1 := { s with own := { s.own with cls := x } }
    if off s1 then { s1 with thread := { s1.thread with cls := x } } else s1
  else s

/-- `SingleThreadService.cpp:92-100` `SetPriorityLevel` -/
def setLevel (x : Nat) (s : Service) : Service :=
  if off s then
    let s1 := { s with own := { s.own with level := x } }
    if off s1 then { s1 with thread := { s1.thread with level := x } } else s1
  else s

/-- `SingleThreadService.cpp:102-110` `SetStackSize` -/
def setStack (x : Nat) (s : Service) : Service :=
  if off s then
    let s1 := { s with own := { s.own with stack := x } }
    if off s1 then { s1 with thread := { s1.thread with stack := x } } else s1
  else s

/-- `SingleThreadService.cpp:112-120` `SetCPUMask` -/
def setCpu (x : Nat) (s : Service) : Service :=
  if off s then
    let s1 := { s with own := { s.own with cpu := x } }
    if off s1 then { s1 with thread := { s1.thread with cpu := x } } else s1
  else s

/-- A configuration: what can be read of it, in milliseconds for the timeout; the class is a text. -/
structure Config where
  timeout : Option Nat
  level : Option Nat
  cpu : Option Nat
  stack : Option Nat
  cls : Option String
deriving DecidableEq, Repr

/-- `EmbeddedServiceI.cpp:56-103` `Initialise`; `perMsec`: the ticks in a millisecond; the container is taken to be initialised. -/
def initialise (perMsec : Nat) (c : Config) (s : Service) : Service × Bool :=
  let s1 := match c.timeout with
    | none => s
    | some t => if t = 0 then setTimeout none s else setTimeout (some (t * perMsec)) s
  let s2 := match c.level with
    | none => s1
    | some x => setLevel x s1
  let s3 := match c.cpu with
    | none => s2
    | some x => setCpu x s2
  let s4 := match c.stack with
    | none => s3
    | some x => setStack x s3
  match c.cls with
  | none => (s4, c.timeout.isSome)
  | some x =>
    if x = "IdlePriorityClass" then (setClass .idle s4, c.timeout.isSome)
    else if x = "NormalPriorityClass" then (setClass .normal s4, c.timeout.isSome)
    else if x = "RealTimePriorityClass" then (setClass .realTime s4, c.timeout.isSome)
    else (s4, false)

/-- `SingleThreadService.cpp:64-67` `Start`, `EmbeddedThreadI.cpp:190-213`: with what the thread is begun, if it is; `ok`: the system begins it. -/
def start (ok : Bool) (s : Service) : Service × Bool × Option Settings :=
  if !off s then (s, false, none)
  else if ok then ({ s with alive := true }, true, some s.thread)
  else (s, false, none)

/-- What happens to a service; `stop ended` tells whether the thread ends, and `ends` is a thread that ends by itself. -/
inductive Op where
  | setTimeout (t : Option Nat)
  | setClass (x : Class)
  | setLevel (x : Nat)
  | setStack (x : Nat)
  | setCpu (x : Nat)
  | initialise (c : Config)
  | start (ok : Bool)
  | stop (ended : Bool)
  | ends
deriving DecidableEq, Repr

/-- The service after an operation; `SingleThreadService.cpp:69-71` for `Stop`. -/
def step (perMsec : Nat) (s : Service) : Op → Service
  | .setTimeout t => setTimeout t s
  | .setClass x => setClass x s
  | .setLevel x => setLevel x s
  | .setStack x => setStack x s
  | .setCpu x => setCpu x s
  | .initialise c => (initialise perMsec c s).1
  | .start ok => (start ok s).1
  | .stop ended => if ended then { s with alive := false } else s
  | .ends => { s with alive := false }

/-- The service after a history. -/
def run (perMsec : Nat) (s : Service) (ops : List Op) : Service := ops.foldl (step perMsec) s

end Verif.ThreadSettings
