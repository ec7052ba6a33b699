/-!
# Model of `BareMetal/L5GAMs/DataSourceI.cpp`: what a data source answers about its signals and functions, and its brokers

The configured database is given as records, one for each node (that `MoveToChild`, `MoveRelative` and `Read` find the nodes and values is
C36): a missing value is `none`.  Texts are read into new `StreamString`s.  Of a frequency only the order with zero matters: it is an
integer here; a frequency that is not a number is not covered.  Whether a class of brokers exists and whether its `Init` succeeds are parameters.
-/
namespace Verif.DataSrc

abbrev Text := List Char

/-- A node of `Functions.<i>.InputSignals` or `OutputSignals`. -/
structure FSig where
  name : Option Text
  alias_ : Option Text
  samples : Option Nat
  frequency : Option Int
  trigger : Option Nat
  broker : Option Text
  deriving DecidableEq, Repr

/-- A node of `Functions`; a direction without a node is `none`.  The nodes of the directions have `ByteSize` as well. -/
structure Fn where
  name : Option Text
  outs : Option (List FSig)
  ins : Option (List FSig)
  deriving DecidableEq, Repr

/-- The data source: the `QualifiedName` of its signals, its functions, and the cache of names. -/
structure DS where
  signals : List (Option Text)
  fns : List Fn
  cache : List (Text × Nat)
  deriving DecidableEq, Repr

/-- `DataSourceI.cpp:61-88` `Initialise`: `container` is the result of `ReferenceContainer::Initialise`, `optim` the text of `DefaultBrokerOptim`,
`signals` whether there is a node `Signals` and the result of its copy.  Result: the answer and the new `defaultBrokerOptim`.
The moves succeed. -/
def initialise (old : Bool) (container : Bool) (optim : Option Text) (signals : Option Bool) : Bool × Bool :=
  let r := if container then
      match optim with
      | some t => if t = "true".toList then (true, true) else if t = "false".toList then (true, false) else (false, old)
      | none => (true, old)
    else (false, old)
  match signals with
  | some w => (w, r.2)
  | none => r

/-- `ConfigurationDatabase::Write` of a leaf (C36): the name is not empty; a leaf of the same name is replaced. -/
def cacheWrite (c : List (Text × Nat)) (n : Text) (i : Nat) : Bool × List (Text × Nat) :=
  if n.length > 0 then (true, c.filter (fun p => p.1 != n) ++ [(n, i)]) else (false, c)

/-- `DataSourceI.cpp:112-126`: the loop of `SetConfiguredDatabase` over the signals from `n` on. -/
def fillCache : (n : Nat) → List (Option Text) → List (Text × Nat) → Bool × List (Text × Nat)
  | _, [], c => (true, c)
  | n, s :: ss, c =>
    match s with
    | none => (false, c)
    | some t =>
      let w := cacheWrite c t n
      if w.1 then fillCache (n + 1) ss w.2 else (false, w.2)

/-- `DataSourceI.cpp:101-128` `SetConfiguredDatabase`, with a node `Signals`. -/
def setConfigured (d : DS) (signals : List (Option Text)) (fns : List Fn) : Bool × DS :=
  let r := fillCache 0 signals d.cache
  (r.1, ⟨signals, fns, r.2⟩)

/-- `DataSourceI.cpp:134-140` `GetSignalName`. -/
def signalName (d : DS) (i : Nat) : Option Text := (d.signals[i]?).bind id

/-- `DataSourceI.cpp:142-144` `GetSignalIndex`. -/
def signalIndex (d : DS) (n : Text) : Option Nat := (d.cache.find? (fun p => p.1 == n)).map (·.2)

/-- `DataSourceI.cpp:443-461` `GetFunctionIndex`, from the function `i` on; an answer `none` is false. -/
def functionIndex (n : Text) : (i : Nat) → List Fn → Option Nat
  | _, [] => none
  | i, f :: fs =>
    match f.name with
    | none => none
    | some t => if n = t then some i else functionIndex n (i + 1) fs

/-- `DataSourceI.cpp:463-480` `GetFunctionNumberOfSignals`, of a function that is there: the answer and the number. -/
def numberOfSignals : Option (List FSig) → Bool × Nat
  | none => (true, 0)
  | some l => if l.length + 1 > 1 then (true, l.length + 1 - 1) else (false, 0)

/-- `DataSourceI.cpp:189-202` (and `208-222`): the loop over the signals of a function; `ret` and the signal found. -/
def scan (n : Text) : List FSig → Bool × Option FSig
  | [] => (true, none)
  | s :: ss =>
    match s.name with
    | none => (false, none)
    | some t =>
      let alias_ := match s.alias_ with
        | some a => a
        | none => []
      if n = t ∨ n = alias_ then (true, some s) else scan n ss

/-- One direction of a function: `DataSourceI.cpp:185-202`, `203-223`. -/
def scanDir (n : Text) (dir : Option (List FSig)) : Bool × Option FSig :=
  if (numberOfSignals dir).1 then
    match dir with
    | none => (true, none)
    | some l => scan n l
  else (false, none)

/-- `DataSourceI.cpp:184-228`: the loop over the functions. -/
def scanFns (n : Text) : List Fn → Bool × Option FSig
  | [] => (true, none)
  | f :: fs =>
    let o := scanDir n f.outs
    if o.1 then
      match o.2 with
      | some s => (true, some s)
      | none =>
        let i := scanDir n f.ins
        if i.1 then
          match i.2 with
          | some s => (true, some s)
          | none => scanFns n fs
        else (false, none)
    else (false, none)

/-- `DataSourceI.cpp:175-233` `GetSignalNumberOfSamples(name)`, with `576-582` `GetFunctionSignalSamples`; `none` is the answer false. -/
def numberOfSamples (d : DS) (n : Text) : Option Nat :=
  let r := scanFns n d.fns
  if r.1 then r.2.map (fun s => match s.samples with | some k => k | none => 1) else none

/-- `DataSourceI.cpp:235-244` `GetSignalNumberOfSamples(index)`. -/
def numberOfSamplesAt (d : DS) (i : Nat) : Option Nat := (signalName d i).bind (numberOfSamples d)

/-- `DataSourceI.cpp:760-776` with `584-598`: `isSyncOrTrigger` of an input (a missing frequency is -1, a missing trigger 0). -/
def syncIn (s : FSig) : Bool :=
  (match s.frequency with | some f => f | none => -1) ≥ 0 || (match s.trigger with | some t => t | none => 0) > 0

/-- `DataSourceI.cpp:855-871`: `isSyncOrTrigger` of an output. -/
def syncOut (s : FSig) : Bool :=
  (match s.frequency with | some f => f | none => -1) > 0 || (match s.trigger with | some t => t | none => 0) > 0

/-- `DataSourceI.cpp:751-830` (and `846-925`): the loop over the signals; `front` says where a broker is inserted.  The brokers are given by their classes. -/
def brokers (d : DS) (works : Text → Bool) (front : FSig → Bool) : List FSig → List Text → Bool × List Text
  | [], bs => (true, bs)
  | s :: ss, bs =>
    match s.broker with
    | none => (false, bs)
    | some b =>
      if bs.contains b then brokers d works front ss bs
      else
        let alias_ := match s.alias_ with
          | some a => a
          | none => []
        match signalIndex d alias_ with
        | none => (false, bs)
        | some _ =>
          if works b then brokers d works front ss (if front s then b :: bs else bs ++ [b])
          else (false, bs)

/-- `DataSourceI.cpp:739-832` `GetInputBrokers`, into an empty container. -/
def inputBrokers (d : DS) (works : Text → Bool) (fn : Text) : Bool × List Text :=
  match functionIndex fn 0 d.fns with
  | none => (false, [])
  | some i =>
    match d.fns[i]? with
    | none => (false, [])
    | some f => if (numberOfSignals f.ins).1 then brokers d works syncIn (f.ins.getD []) [] else (false, [])

/-- `DataSourceI.cpp:835-927` `GetOutputBrokers`, into an empty container. -/
def outputBrokers (d : DS) (works : Text → Bool) (fn : Text) : Bool × List Text :=
  match functionIndex fn 0 d.fns with
  | none => (false, [])
  | some i =>
    match d.fns[i]? with
    | none => (false, [])
    | some f => if (numberOfSignals f.outs).1 then brokers d works (fun s => !syncOut s) (f.outs.getD []) [] else (false, [])

end Verif.DataSrc
