/-!
# Real-time scheduling

`Source/Core/BareMetal/L5GAMs/GAMSchedulerI.cpp`, `RealTimeApplication.cpp` 468-525 and `Source/Core/Scheduler/L5GAMs/GAMScheduler.cpp`.
-/

namespace Verif.Scheduler

/-! ## The list of executables (`ConfigureScheduler`, lines 141-230 and 235-360) -/

/-- What `ConfigureScheduler` reads of a function (GAM): its brokers (`none` is a reference that is not an `ExecutableI`), itself, and
whether its three timing signals are found with an address. -/
structure Gam where
  inputs : List (Option Nat)
  self : Nat
  outputs : List (Option Nat)
  readTime : Bool
  execTime : Bool
  writeTime : Bool

/-- The `executables` array and the index `executableIdx`; an index outside the array is `none` (a write outside the allocation). -/
abbrev Arr := List (Option Nat)

def store (a : Arr) (i : Nat) (e : Nat) : Option Arr := if i < a.length then some (a.set i (some e)) else none

/-- `GAMSchedulerI.cpp:264-278` and `348-358`. Result: `none` for an out of bounds write, else (ret, array, index). -/
def insertBrokers : List (Option Nat) → Arr → Nat → Option (Bool × Arr × Nat)
  | [], a, c => some (true, a, c)
  | none :: _, a, c => some (false, a, c + 1)
  | some b :: bs, a, c => (store a c b).bind fun a' => insertBrokers bs a' (c + 1)

/-- `GAMSchedulerI.cpp:179-199`: one GAM. -/
def insertGam (g : Gam) (a : Arr) (c : Nat) : Option (Bool × Arr × Nat) :=
  if g.readTime then
    (insertBrokers g.inputs a c).bind fun r =>
      if r.1 then
        if g.execTime then
          (store r.2.1 r.2.2 g.self).bind fun a' =>
            if g.writeTime then insertBrokers g.outputs a' (r.2.2 + 1) else some (false, a', r.2.2 + 1)
        else some (false, r.2.1, r.2.2)
      else some r
  else some (false, a, c)

/-- `GAMSchedulerI.cpp:178-199`. -/
def insertGams : List Gam → Arr → Nat → Option (Bool × Arr × Nat)
  | [], a, c => some (true, a, c)
  | g :: gs, a, c => (insertGam g a c).bind fun r => if r.1 then insertGams gs r.2.1 r.2.2 else some r

/-- `GAMSchedulerI.cpp:149-169`. -/
def numberOfExecutables (gs : List Gam) : Nat := gs.foldl (fun n g => n + g.inputs.length + g.outputs.length) gs.length

/-- `GAMSchedulerI.cpp:146-199`: the executables of one thread. -/
def configureThread (gs : List Gam) : Option (Bool × Arr) :=
  (insertGams gs (List.replicate (numberOfExecutables gs) none) 0).map fun r => (r.1, r.2.1)

/-! ## One cycle (`ExecuteSingleCycle`, lines 399-441) -/

/-- An executable in one cycle: identity, whether it is enabled, what `Execute` returns and whether its timing address is not null. -/
structure Slot where
  id : Nat
  enabled : Bool
  ok : Bool
  timed : Bool

/-- `GAMSchedulerI.cpp:406-438`: the executables executed, in order, and the result. -/
def cycle : List Slot → List Nat × Bool
  | [] => ([], true)
  | s :: ss =>
    if s.enabled then
      if s.ok then
        if s.timed then (s.id :: (cycle ss).1, (cycle ss).2) else ([s.id], false)
      else ([s.id], false)
    else if s.timed then cycle ss else ([], false)

/-! ## State switching -/

/-- A declared state: its name and the number of its threads. -/
structure StateDecl where
  name : Nat
  threads : Nat

/-- `RealTimeApplication` (`index`, `stateNameHolder`) and `GAMSchedulerI` (`scheduledStates`, `nextStateIdentifier`,
`*currentStateIdentifier`), with what `GAMScheduler` keeps per buffer (`rtThreadInfo`, as the index of the state it was made from). Buffers
are indexed by `Bool` (`index` is 0 or 1). `bound` is `realTimeApplicationT.IsValid()`. -/
structure App where
  index : Bool
  holder : Bool → Nat
  scheduled : Bool → Option Nat
  info : Bool → Option Nat
  nextId : Nat
  currentId : Nat
  bound : Bool

def setB {α : Type} (f : Bool → α) (b : Bool) (v : α) : Bool → α := fun x => if x = b then v else f x

/-- `GAMSchedulerI.cpp:380-388`: the first state with that name. -/
def findState (ds : List StateDecl) (name : Nat) : Option Nat := ds.findIdx? (fun d => d.name == name)

/-- `GAMSchedulerI.cpp:364-397` with `GAMScheduler.cpp:167-218` (threads and semaphore taken to succeed). -/
def schedulerPrepare (ds : List StateDecl) (a : App) (name : Nat) : Bool × App :=
  match findState ds name with
  | none => (false, { a with nextId := ds.length })
  | some i => (true, { a with nextId := i, scheduled := setB a.scheduled (!a.index) (some i), info := setB a.info (!a.index) (some i), bound := true })

/-- `RealTimeApplication.cpp:468-506` `PrepareNextState`; `others` tells whether the state object and all the stateful data sources
accepted (lines 473-494). -/
def prepare (ds : List StateDecl) (a : App) (name : Nat) (others : Bool) : Bool × App :=
  let r := if others then schedulerPrepare ds a name else (false, a)
  (r.1, { r.2 with holder := setB r.2.holder (!r.2.index) name })

/-- `RealTimeApplication.cpp:508-516` with `GAMScheduler.cpp:129-154`. -/
def start (a : App) : Bool × App :=
  let b := { a with index := !a.index }
  if b.bound then
    match b.scheduled b.index with
    | some _ => (true, { b with currentId := b.nextId })
    | none => (false, b)
  else (false, b)

/-- Initial value: nothing prepared. -/
def App.initial : App := ⟨false, fun _ => 0, fun _ => none, fun _ => none, 0, 0, false⟩

inductive Op where
  | prepare (name : Nat) (others : Bool)
  | start

def step (ds : List StateDecl) (a : App) : Op → Bool × App
  | .prepare n o => prepare ds a n o
  | .start => start a

def runOps (ds : List StateDecl) : App → List Op → App
  | a, [] => a
  | a, o :: os => runOps ds (step ds a o).2 os

/-- What the threads of the running state execute: `GAMScheduler.cpp:224-231`, `rtThreadInfo[GetIndex()]`. -/
def App.running (a : App) : Option Nat := a.info a.index

/-! ## Threads of the scheduler

`GAMScheduler.cpp:167-263`. Each `PrepareNextState` creates the threads of the next state, that wait on the semaphore; each cycle of each
thread reads the index and uses `rtThreadInfo` of that index. Threads belong to the `MultiThreadService` of the buffer they were
created for. -/

inductive Phase where
  | waiting
  | looping
deriving DecidableEq

structure Thread where
  buffer : Bool
  number : Nat
  phase : Phase
deriving DecidableEq

structure Sys where
  app : App
  sem : Bool
  threads : List Thread

/-- A cycle was executed by thread `number` of the service of `buffer` on the executables of thread `number` of state `state`. -/
inductive Obs where
  | exec (buffer : Bool) (number : Nat) (state : Option Nat)
deriving DecidableEq

inductive Ev where
  | prepare (name : Nat) (others : Bool)
  | start
  | stop
  | pass (i : Nat)
  | cycle (i : Nat)

def threadCount (ds : List StateDecl) (i : Nat) : Nat := ((ds[i]?).map (·.threads)).getD 0

/-- One event. `none`: the event is not possible. -/
def sysStep (ds : List StateDecl) (s : Sys) : Ev → Option (Sys × List Obs)
  | .prepare n o =>
    match (prepare ds s.app n o).1 with
    | false => some ({ s with app := (prepare ds s.app n o).2 }, [])
    | true => some (⟨(prepare ds s.app n o).2, false,
        s.threads.filter (fun t => t.buffer != (!s.app.index)) ++
          (List.range (threadCount ds (prepare ds s.app n o).2.nextId)).map fun k => ⟨!s.app.index, k, .waiting⟩⟩, [])
  | .start => some ({ s with app := (start s.app).2, sem := s.sem || (start s.app).1 }, [])
  | .stop => some ({ s with threads := s.threads.filter (fun t => t.buffer != s.app.index) }, [])
  | .pass i =>
    match s.threads[i]? with
    | some t => if s.sem ∧ t.phase = .waiting then some ({ s with threads := s.threads.set i { t with phase := .looping } }, []) else none
    | none => none
  | .cycle i =>
    match s.threads[i]? with
    | some t => if t.phase = .looping then some (s, [.exec t.buffer t.number (s.app.info s.app.index)]) else none
    | none => none

def sysRun (ds : List StateDecl) : Sys → List Ev → Option (Sys × List Obs)
  | s, [] => some (s, [])
  | s, e :: es => (sysStep ds s e).bind fun r => (sysRun ds r.1 es).map fun q => (q.1, r.2 ++ q.2)

end Verif.Scheduler
