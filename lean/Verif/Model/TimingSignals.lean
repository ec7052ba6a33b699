import Verif.Model.Token
/-!
# Model of the signals of a timing data source

`BareMetal/L5GAMs/RealTimeApplicationConfigurationBuilder.cpp`: `AddThreadCycleTime`, `AddTimingSignals`, `WriteTimeSignalInfo`,
`CheckTimeSignalInfo`.

Simplifications.  The signals of the data source are a list of records and not a tree of nodes; the two caches of indexes, which
follow the list, and the empty node `States` of new signals are left out.
-/
namespace Verif.TimingSignals

abbrev Text := List Char

/-- A signal of the data source; `none` is a property that was not written. -/
structure Sig where
  name : Text
  type : Option Text
  fullType : Option Text
  dims : Option Nat
  elems : Option Nat
  bytes : Option Nat
deriving DecidableEq, Repr

/-- Lines 2001-2007, 2036-2041: `Node.` for each token that can be skipped (`IOBuffer::SkipTokens`, `IOBuffer.cpp:1673-1700`, with
one token and `.`: it succeeds if it finds a point after a token that is not empty).  The flag: the token is not empty. -/
def nodes : Text → Bool → Text
  | [], _ => []
  | c :: cs, b =>
    if c = '.' || c = '\x00' then (if b then "Node.".toList ++ nodes cs false else nodes cs false)
    else nodes cs true

def fullTypeOf (name : Text) : Text := nodes name false ++ "uint32".toList

/-- Lines 1983-2017 `WriteTimeSignalInfo`. -/
def written (name : Text) : Sig := ⟨name, some "uint32".toList, some (fullTypeOf name), some 0, some 1, some 4⟩

/-- A property: written if it is not there, otherwise it must be the same. -/
def fill {α : Type} [DecidableEq α] (have_ : Option α) (want : α) : Option (Option α) :=
  match have_ with
  | none => some (some want)
  | some v => if v = want then some (some v) else none

/-- Lines 2019-2081 `CheckTimeSignalInfo`: the properties one after the other. -/
def checked (s : Sig) : Option Sig :=
  match fill s.type "uint32".toList with
  | none => none
  | some t =>
    match fill s.fullType (fullTypeOf s.name) with
    | none => none
    | some f =>
      match fill s.dims 0 with
      | none => none
      | some d =>
        match fill s.elems 1 with
        | none => none
        | some e =>
          match fill s.bytes 4 with
          | none => none
          | some b => some ⟨s.name, t, f, d, e, b⟩

/-- Lines 1944-1976 and 2399-2437: the first signal with the name is checked; if there is none, a new one is added at the end. -/
def ensure (name : Text) : List Sig → Option (List Sig)
  | [] => some [written name]
  | s :: ss =>
    if s.name = name then (checked s).map (· :: ss)
    else (ensure name ss).map (s :: ·)

/-- The signals of names, one after the other. -/
def ensureAll : List Text → List Sig → Option (List Sig)
  | [], ss => some ss
  | n :: ns, ss =>
    match ensure n ss with
    | none => none
    | some ss => ensureAll ns ss

/-- Lines 1524-1530 and 1921-1981 `AddThreadCycleTime`: the threads of the states, by the names of the state and of the thread. -/
def addCycleTimes (threads : List (Text × Text)) (ss : List Sig) : Option (List Sig) :=
  ensureAll (threads.map fun t => t.1 ++ ['.'] ++ t.2 ++ "_CycleTime".toList) ss

/-- Lines 2378-2463 `AddTimingSignals`: the signals of the functions, then one more. -/
def addTimingSignals (functions : List Text) (ss : List Sig) : Option (List Sig) :=
  (ensureAll (functions.flatMap fun f => [f ++ "_ReadTime".toList, f ++ "_ExecTime".toList, f ++ "_WriteTime".toList]) ss).map
    (· ++ [written "CurrentState".toList])

/-- `DataSourceI.cpp:102-128, 142-144`: the signal that a name stands for: each signal replaces the one with the same name before
it. -/
def lookup (ss : List Sig) (name : Text) : Option Sig := ss.reverse.find? fun s => s.name = name

end Verif.TimingSignals
