/-!
# Model of the objects that are told of a change of state

`BareMetal/L5GAMs/RealTimeState.cpp` and `RealTimeApplication.cpp`: `AddStatefuls`, `PrepareNextState`, `StartNextStateExecution`.  Objects are numbers; the
containers `States` and `Data` and the scheduler are there.  Whether an object accepts comes with the call.
-/
namespace Verif.StateTold

abbrev Text := List Char

/-- `RealTimeState.cpp:54-73` `AddStatefuls`: an element that is not an object with states is `none`. -/
def addStatefuls (have_ : List Nat) : List (Option Nat) → List Nat × Bool
  | [] => (have_, true)
  | none :: _ => (have_, false)
  | some x :: rest => addStatefuls (if x ∈ have_ then have_ else have_ ++ [x]) rest

/-- A state and the objects of it that are told. -/
structure StateDecl where
  name : Text
  statefuls : List Nat

/-- An object, the name of the current state and of the next one. -/
abbrev Told := Nat × Text × Text

/-- `RealTimeState.cpp:75-87` and `RealTimeApplication.cpp:487-494`: the objects one after the other until one refuses. -/
def tell (accept : Nat → Bool) (current next : Text) : List Nat → List Told × Bool
  | [] => ([], true)
  | x :: rest =>
    if accept x then
      let r := tell accept current next rest
      ((x, current, next) :: r.1, r.2)
    else ([(x, current, next)], false)

/-- `RealTimeApplication.cpp:473-485`: the loop over the states; it ends without error when no state has the name. -/
def tellState (accept : Nat → Bool) (current next : Text) : List StateDecl → List Told × Bool
  | [] => ([], true)
  | s :: rest => if s.name = next then tell accept current next s.statefuls else tellState accept current next rest

/-- `RealTimeApplication.h`: `stateNameHolder` and `index`. -/
structure App where
  holder : Bool → Text
  index : Bool

/-- `RealTimeApplication.cpp:468-506` `PrepareNextState`, with `GAMSchedulerI.cpp:364-397`: the scheduler accepts the names of states. -/
def prepare (states : List StateDecl) (data : List Nat) (accept : Nat → Bool) (next : Text) (a : App) : App × List Told × Bool :=
  let current := a.holder a.index
  let r1 := tellState accept current next states
  let r2 := if r1.2 then tell accept current next data else ([], false)
  let known := states.any fun s => s.name == next
  ({ a with holder := fun i => if i = !a.index then next else a.holder i }, r1.1 ++ r2.1, r2.2 && known)

/-- `RealTimeApplication.cpp:508-516` `StartNextStateExecution`. -/
def start (a : App) : App := { a with index := !a.index }

/-- What the owner of the application does. -/
inductive Op where
  | prepare (next : Text) (accept : Nat → Bool)
  | start

/-- `RealTimeApplication.cpp:78`. -/
def init : App := ⟨fun _ => [], true⟩

/-- What is told in each of the preparations of a history. -/
def run (states : List StateDecl) (data : List Nat) (a : App) : List Op → App × List (List Told)
  | [] => (a, [])
  | .prepare next accept :: ops =>
    let r := prepare states data accept next a
    let rest := run states data r.1 ops
    (rest.1, r.2.1 :: rest.2)
  | .start :: ops => run states data (start a) ops

end Verif.StateTold
