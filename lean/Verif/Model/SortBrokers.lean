/-!
# Model of the assignment of brokers to functions, and of their order

`BareMetal/L5GAMs/RealTimeApplication.cpp`: `AddBrokersToFunctions`; `DataSourceI.cpp`: `AddBrokers`; `GAM.cpp`: `AddInputBrokers`,
`SortBrokers`.

Simplifications.  A broker is its identity and the name of the data source that owns it; the brokers that a data source makes for a
function (`GetInputBrokers`, `GetOutputBrokers`) are given.  The functions are a tree of objects; those that are not functions are
containers.
-/
namespace Verif.SortBrokers

abbrev Name := List Char

/-- A broker: which object it is, and `GetOwnerDataSourceName`. -/
structure Broker where
  id : Nat
  source : Name
deriving DecidableEq, Repr

/-- `GAM.cpp:640-645`: take the broker out and put it at a position. -/
def place (l : List Broker) (b : Broker) (at_ : Nat) : List Broker := (l.erase b).insertIdx at_ b

/-- `GAM.cpp:636-648`: the brokers of one data source, from position `n`; `count` have their place.  The first argument is the number
of rounds that remain. -/
def inner (ds : Name) : Nat → Nat → List Broker → Nat → List Broker × Nat
  | 0, _, l, count => (l, count)
  | k + 1, n, l, count =>
    match l[n]? with
    | none => (l, count)
    | some b =>
      if b.source = ds then inner ds k (n + 1) (if count ≠ n then place l b count else l) (count + 1)
      else inner ds k (n + 1) l count

/-- `GAM.cpp:632-656` (and 660-684): the signals one after the other, each with the name of its data source (`none`: it cannot be
read).  Returns whether it succeeded, and the brokers. -/
def sort : List (Option Name) → List Broker → Nat → Bool × List Broker
  | [], l, _ => (true, l)
  | none :: _, l, _ => (false, l)
  | some ds :: ss, l, count =>
    let r := inner ds (l.length - count) count l count
    if r.2 = l.length then (true, r.1) else sort ss r.1 r.2

/-- A function: the data sources of its signals, its brokers. -/
structure Gam where
  inputs : List (Option Name)
  outputs : List (Option Name)
  inBrokers : List Broker
  outBrokers : List Broker
deriving DecidableEq, Repr

/-- `GAM.cpp:626-686` `SortBrokers`. -/
def sortBrokers (g : Gam) : Bool × Gam :=
  let i := sort g.inputs g.inBrokers 0
  if i.1 then
    let o := sort g.outputs g.outBrokers 0
    (o.1, { g with inBrokers := i.2, outBrokers := o.2 })
  else (false, { g with inBrokers := i.2 })

/-- The objects of a container, one after the other: a function or not, and what it contains. -/
inductive Objects
  | nil
  | cons (name : Name) (gam : Option Gam) (kids rest : Objects)

/-- A data source: the brokers it makes for a function, by the path of the function (`none`: it fails). -/
structure Source where
  inputs : List Name → Option (List Broker)
  outputs : List Name → Option (List Broker)

/-- `DataSourceI.cpp:640-731` `AddBrokers` with `GAM.cpp:596-624`, for both directions and one function: the brokers are appended, if
the function has signals in that direction. -/
def addTo (s : Source) (path : List Name) (g : Gam) : Option Gam :=
  let ins := if g.inputs = [] then some [] else s.inputs path
  let outs := if g.outputs = [] then some [] else s.outputs path
  match ins, outs with
  | some i, some o => some { g with inBrokers := g.inBrokers ++ i, outBrokers := g.outBrokers ++ o }
  | _, _ => none

/-- The functions found by their path (`DataSourceI.cpp:676-680`), at any depth. -/
def addAll (s : Source) : Objects → List Name → Option Objects
  | .nil, _ => some .nil
  | .cons n g k r, pre =>
    let g' := match g with
      | none => some none
      | some g => (addTo s (pre ++ [n]) g).map some
    match g', addAll s k (pre ++ [n]), addAll s r pre with
    | some g', some k', some r' => some (.cons n g' k' r')
    | _, _, _ => none

/-- `RealTimeApplication.cpp:423-453`: the data sources one after the other. -/
def addSources : List Source → Objects → Option Objects
  | [], o => some o
  | s :: ss, o =>
    match addAll s o [] with
    | none => none
    | some o' => addSources ss o'

/-- `RealTimeApplication.cpp:455-464`: the functions that are in the container `Functions` itself. -/
def sortTop : Objects → Option Objects
  | .nil => some .nil
  | .cons n g k r =>
    match g with
    | none => (sortTop r).map (.cons n none k ·)
    | some g =>
      let x := sortBrokers g
      if x.1 then (sortTop r).map (.cons n (some x.2) k ·) else none

/-- `RealTimeApplication.cpp:422-467` `AddBrokersToFunctions`. -/
def addBrokersToFunctions (ss : List Source) (o : Objects) : Option Objects :=
  match addSources ss o with
  | none => none
  | some o' => sortTop o'

end Verif.SortBrokers
