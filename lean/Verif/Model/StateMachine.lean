/-!
# StateMachine

`Source/Core/Scheduler/L4StateMachine/StateMachine.cpp`, `StateMachineEvent.cpp`, with the pool of filters of
`Source/Core/BareMetal/L4Messages/MessageFilterPool.cpp` 53-88 and the queue thread of `Source/Core/Scheduler/L4Messages/QueuedMessageI.cpp`
100-136 (one message at a time). States are identified by their position; `NextState` and `NextStateError` are the positions they resolve to
(`Initialise`, lines 112-153, refuses names that do not resolve). State names are taken to be distinct.
-/

namespace Verif.StateMachine

/-- A `StateMachineEvent`: name, `NextState`, `NextStateError`. -/
structure Event where
  name : Nat
  next : Nat
  nextErr : Nat
deriving DecidableEq

/-- The events of each state. -/
abbrev Machine := List (List Event)

/-- An event is identified by its state and its position in it. -/
abbrev Id := Nat × Nat

def event (m : Machine) (id : Id) : Option Event := (m[id.1]?).bind fun es => es[id.2]?

def eventsOf (m : Machine) (s : Nat) : List Id := (List.range ((m[s]?).getD []).length).map fun j => (s, j)

/-- `currentState`, `queuedMessageFilters` (in order) and the `reset` flag of each event. -/
structure SM where
  cur : Nat
  pool : List Id
  ready : Id → Bool

/-- What happens to the messages sent while a message is being processed: those of an event, and those of the `ENTER` container of a
state. -/
structure Env where
  send : Id → Bool
  enter : Nat → Bool

/-- `StateMachine.cpp:106-181`: the state after a successful `Initialise`. The filters are installed one by one at the front
(`QueuedMessageI.h:88`, position 0). -/
def initial (m : Machine) : SM := ⟨0, (eventsOf m 0).reverse, fun _ => true⟩

/-- `StateMachine.cpp:211-219`: the loop removing the filters; it ends at the first one not found. -/
def removeFilters : List Id → List Id → List Id
  | [], pool => pool
  | id :: ids, pool => if id ∈ pool then removeFilters ids (pool.erase id) else pool

/-- `StateMachine.cpp:183-294` `EventTriggered`: whether it returns without errors, and the new state. The filter pool operations are those of
lines 206-221 and 248-261; new filters go to the front. -/
def trigger (m : Machine) (env : Env) (x : SM) (id : Id) (e : Event) : Bool × SM :=
  let target := if env.send id then e.next else e.nextErr
  let pool1 := if e.next ≠ x.cur then removeFilters ((eventsOf m x.cur).filter (· ≠ id)) x.pool else x.pool
  let pool2 := if e.next ≠ x.cur then (eventsOf m target).reverse ++ pool1 else pool1
  (env.enter target, ⟨target, pool2, fun i => if i ∈ eventsOf m target then true else x.ready i⟩)

/-- `MessageFilterPool.cpp:60-70` with `StateMachineEvent.cpp:104-131` `ConsumeMessage`; the events are permanent filters
(`StateMachineEvent.cpp:46`), so a match removes nothing. `i` is the position in the pool, which `EventTriggered` may modify. `none`: `fuel`
iterations were not enough. -/
def receiveFrom (m : Machine) (env : Env) (name : Nat) : Nat → Nat → SM → Option SM
  | 0, _, _ => none
  | f + 1, i, x =>
    match x.pool[i]? with
    | none => some x
    | some id =>
      match event m id with
      | none => receiveFrom m env name f (i + 1) x
      | some e =>
        if e.name = name then
          if x.ready id then
            if (trigger m env { x with ready := fun j => if j = id then false else x.ready j } id e).1 then
              some (trigger m env { x with ready := fun j => if j = id then false else x.ready j } id e).2
            else receiveFrom m env name f (i + 1) (trigger m env { x with ready := fun j => if j = id then false else x.ready j } id e).2
          else some x
        else receiveFrom m env name f (i + 1) x

/-- A message taken from the queue. -/
structure Msg where
  name : Nat
  env : Env

def receive (m : Machine) (fuel : Nat) (x : SM) (msg : Msg) : Option SM := receiveFrom m msg.env msg.name fuel 0 x

/-- A history of messages. -/
def run (m : Machine) (fuel : Nat) : SM → List Msg → Option SM
  | x, [] => some x
  | x, msg :: ms => (receive m fuel x msg).bind fun y => run m fuel y ms

end Verif.StateMachine
