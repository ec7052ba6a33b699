/-!
# Questions on the signals of a GAM

`Source/Core/BareMetal/L5GAMs/GAM.cpp:286-321, 391-478, 533-594`.

Simplified: the configured database of one direction is a list with one entry for each signal, and the number of signals is the length of
that list.  A value that cannot be read is `none`.  The table of ranges of a signal has two columns, so reading it does not fail.
The frequency is a value of any type.
-/
namespace Verif.GamLookup

/-- `GAM.cpp:286-294, 391-478`: what the configured database has about one signal. -/
structure Sig where
  /-- `QualifiedName`. -/
  name : Option String
  /-- `DataSource`. -/
  source : Option String
  /-- `Ranges`; empty when absent. -/
  ranges : List (Nat × Nat)
  /-- `ByteOffset`; empty when absent. -/
  offsets : List (Nat × Nat)

/-- `GAM.cpp:544-579`: a data source under `Memory.InputSignals` or `Memory.OutputSignals`, with the frequency found under
`Signals.<index>`. -/
structure Mem (F : Type) where
  source : Option String
  frequency : Nat → Option F

/-- `GAM.cpp:586-594` `MoveToSignalIndex`. -/
def moveTo (sigs : List Sig) (i : Nat) : Option Sig := sigs[i]?

/-- `GAM.cpp:286-294` `GetSignalName`. -/
def getName (sigs : List Sig) (i : Nat) : Option String :=
  match moveTo sigs i with
  | none => none
  | some s => s.name

/-- `GAM.cpp:309-316`: the loop of `GetSignalIndex`, with `fuel` signals to go; the answer and the variable `signalIdx`. -/
def indexLoop (sigs : List Sig) (name : String) : Nat → Nat → Nat → Bool × Nat
  | 0, _, idx => (false, idx)
  | fuel + 1, i, idx =>
    match getName sigs i with
    | none => (false, idx)
    | some n => if name = n then (true, i) else indexLoop sigs name fuel (i + 1) i

/-- `GAM.cpp:296-321` `GetSignalIndex`; `idx` is what the variable of the caller has before. -/
def getIndex (sigs : List Sig) (name : String) (idx : Nat) : Bool × Nat := indexLoop sigs name sigs.length 0 idx

/-- `GAM.cpp:391-404, 436-449`: the number of rows of the table. -/
def numberOf (table : Sig → List (Nat × Nat)) (sigs : List Sig) (i : Nat) : Option Nat :=
  match moveTo sigs i with
  | none => none
  | some s => some (table s).length

/-- `GAM.cpp:406-434, 451-478`: one row of the table; `out` is what the two variables of the caller have before. -/
def rowOf (table : Sig → List (Nat × Nat)) (sigs : List Sig) (i r : Nat) (out : Nat × Nat) : Bool × (Nat × Nat) :=
  match numberOf table sigs i with
  | none => (false, out)
  | some n =>
    if n > 0 then
      if n > r then
        match moveTo sigs i with
        | none => (false, out)
        | some s => (true, (table s).getD r out)
      else (false, out)
    else (false, out)

/-- `GAM.cpp:451-478` `GetSignalRangesInfo`. -/
def getRange (sigs : List Sig) (i r : Nat) (out : Nat × Nat) : Bool × (Nat × Nat) := rowOf Sig.ranges sigs i r out

/-- `GAM.cpp:406-434` `GetSignalByteOffsetInfo`. -/
def getOffset (sigs : List Sig) (i r : Nat) (out : Nat × Nat) : Bool × (Nat × Nat) := rowOf Sig.offsets sigs i r out

/-- `GAM.cpp:556-582`: the loop of `GetSignalFrequency`; the answer is `ret`, whether or not the data source was found. -/
def freqLoop {F : Type} (src : String) (i : Nat) (f : F) : List (Mem F) → Bool × F
  | [] => (true, f)
  | m :: r =>
    match m.source with
    | none => (false, f)
    | some d =>
      if d = src then
        match m.frequency i with
        | none => (false, f)
        | some v => (true, v)
      else freqLoop src i f r

/-- `GAM.cpp:533-584` `GetSignalFrequency`; `mem` is `none` when there is no memory node for the direction. -/
def getFrequency {F : Type} (sigs : List Sig) (mem : Option (List (Mem F))) (i : Nat) (f : F) : Bool × F :=
  match moveTo sigs i with
  | none => (false, f)
  | some s =>
    match s.source, mem with
    | some d, some l => freqLoop d i f l
    | _, _ => (false, f)

end Verif.GamLookup
