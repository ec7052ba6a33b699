/-!
# Model of `MultiThreadService`

`Source/Core/Scheduler/L3Services/MultiThreadService.cpp` and `EmbeddedServiceI.cpp`.  What a thread does is in the model of
`EmbeddedThread` (C54); here its answers to `Start` and `Stop` are given by the environment.
-/
namespace Verif.ThreadPool

/-- `EmbeddedServiceI.h`, `EmbeddedThreadI.h`: the settings of a service and of a thread. -/
structure Conf where
  cls : Nat
  level : Nat
  cpu : Nat
  stack : Nat
  timeout : Nat
deriving DecidableEq, Repr

/-- A thread: its settings, its number and, when its status is not `OffState`, the settings that it was started with. -/
structure Thr where
  conf : Conf
  number : Nat
  running : Option Conf
deriving DecidableEq, Repr

/-- `MultiThreadService.h`: the settings, `numberOfPoolThreads` and `threadPool`. -/
structure Svc where
  conf : Conf
  count : Nat
  pool : List Thr
deriving DecidableEq

/-- One of the settings with its new value. -/
inductive Setting
  | cls (v : Nat)
  | level (v : Nat)
  | cpu (v : Nat)
  | stack (v : Nat)
deriving DecidableEq

/-- `EmbeddedServiceI.cpp:117-143`: the assignment. -/
def Conf.set (c : Conf) : Setting → Conf
  | .cls v => { c with cls := v }
  | .level v => { c with level := v }
  | .cpu v => { c with cpu := v }
  | .stack v => { c with stack := v }

/-- `MultiThreadService.cpp:354-364` `GetStatus(i) == OffState`. -/
def off (s : Svc) (i : Nat) : Bool := ((s.pool[i]?).bind (·.running)).isNone

/-- `MultiThreadService.cpp:287-289`, `390-392` and the same loops: all the threads are off. -/
def allOff (s : Svc) : Bool := s.pool.all fun t => t.running.isNone

/-- `MultiThreadService.cpp:252-276` `CreateThreads` on an empty pool, when there is memory.  The stack size is not given to the threads; their
number is a `uint16`.  `stack0` is `THREADS_DEFAULT_STACKSIZE`. -/
def createThreads (stack0 : Nat) (s : Svc) : List Thr :=
  (List.range s.count).map fun i => ⟨{ s.conf with stack := stack0 }, i % 2 ^ 16, none⟩

/-- `MultiThreadService.cpp:294-303`: the threads are started in order, up to the first that fails. -/
def startLoop : (answers : List Bool) → List Thr → Bool × List Thr
  | _, [] => (true, [])
  | answers, t :: pool =>
    if answers.headD true then
      let r := startLoop answers.tail pool
      (r.1, { t with running := some t.conf } :: r.2)
    else (false, t :: pool)

/-- `MultiThreadService.cpp:278-310` `Start`; `answers` are those of the threads. -/
def start (stack0 : Nat) (answers : List Bool) (s : Svc) : Bool × Svc :=
  if s.pool.length = 0 then
    let r := startLoop answers (createThreads stack0 s)
    (r.1, { s with pool := r.2 })
  else if allOff s then
    let r := startLoop answers s.pool
    (r.1, { s with pool := r.2 })
  else (false, s)

/-- What a thread answers to `Stop`: whether it had no error, and whether it is off afterwards. -/
structure StopAnswer where
  ok : Bool
  off : Bool
deriving DecidableEq

/-- `MultiThreadService.cpp:315-326` (and `328-342`): each thread that is not off is asked to stop; the error is the one of the last. -/
def stopLoop : (answers : List StopAnswer) → (err : Bool) → List Thr → Bool × List Thr
  | _, err, [] => (err, [])
  | answers, err, t :: pool =>
    if t.running.isSome then
      let a := answers.headD ⟨true, true⟩
      let r := stopLoop answers.tail a.ok pool
      (r.1, (if a.off then { t with running := none } else t) :: r.2)
    else
      let r := stopLoop answers.tail err pool
      (r.1, t :: r.2)

/-- `MultiThreadService.cpp:312-352` `Stop`: the answer, the threads after the two rounds (that `Purge` lets go), and the service. -/
def stop (first second : List StopAnswer) (s : Svc) : Bool × List Thr × Svc :=
  let r1 := stopLoop first true s.pool
  let r2 := stopLoop second r1.1 r1.2
  (r2.1, r2.2, { s with pool := [] })

/-- `MultiThreadService.cpp:387-465`: a setting of the service. -/
def setAll (v : Setting) (s : Svc) : Svc :=
  if allOff s then { s with conf := s.conf.set v, pool := s.pool.map fun t => { t with conf := t.conf.set v } } else s

/-- `MultiThreadService.cpp:376-385` `SetTimeout`, also while threads run. -/
def setTimeout (v : Nat) (s : Svc) : Svc :=
  { s with conf := { s.conf with timeout := v }, pool := s.pool.map fun t => { t with conf := { t.conf with timeout := v } } }

/-- `MultiThreadService.cpp:523-583`: a setting of one thread. -/
def setOne (i : Nat) (v : Setting) (s : Svc) : Svc :=
  if off s i then { s with pool := s.pool.modify i fun t => { t with conf := t.conf.set v } } else s

/-- `MultiThreadService.cpp:370-374` `SetNumberOfPoolThreads`. -/
def setCount (n : Nat) (s : Svc) : Svc := if s.pool.length = 0 then { s with count := n } else s

/-- `MultiThreadService.cpp:96-126`, `154-165`, `193-204`, `232-243`: the rows (thread, value) of a table of the configuration; `mk` makes the
setting (the level is converted to `uint8`). -/
def applyRows (mk : Nat → Setting) : List (Nat × Nat) → Svc → Bool × Svc
  | [], s => (true, s)
  | (i, v) :: rows, s => if i < s.count then applyRows mk rows (setOne i (mk v) s) else (false, s)

/-- `MultiThreadService.cpp:157`: the level of a row. -/
def mkLevel (v : Nat) : Setting := .level (v % 256)

/-- `MultiThreadService.cpp:62-250` `Initialise`, after the settings of the service are read (as `conf` and `count`): the threads are
created and the four tables applied. -/
def initialise (stack0 : Nat) (conf : Conf) (count : Nat) (classes levels stacks cpus : List (Nat × Nat)) : Bool × Svc :=
  let s : Svc := ⟨conf, count, []⟩
  let s := { s with pool := createThreads stack0 s }
  let r := applyRows .cls classes s
  if r.1 then
    let r := applyRows mkLevel levels r.2
    if r.1 then
      let r := applyRows .stack stacks r.2
      if r.1 then applyRows .cpu cpus r.2 else r
    else r
  else r

/-- What can happen to a service. -/
inductive Op
  | setAll (v : Setting)
  | setTimeout (v : Nat)
  | setOne (i : Nat) (v : Setting)
  | setCount (n : Nat)
  | start (answers : List Bool)
  | stop (first second : List StopAnswer)
  /-- a thread ends by itself -/
  | ends (i : Nat)

/-- One step. -/
def step (stack0 : Nat) (s : Svc) : Op → Svc
  | .setAll v => setAll v s
  | .setTimeout v => setTimeout v s
  | .setOne i v => setOne i v s
  | .setCount n => setCount n s
  | .start a => (start stack0 a s).2
  | .stop a b => (stop a b s).2.2
  | .ends i => { s with pool := s.pool.modify i fun t => { t with running := none } }

/-- A history. -/
def run (stack0 : Nat) (s : Svc) (ops : List Op) : Svc := ops.foldl (step stack0) s

end Verif.ThreadPool
