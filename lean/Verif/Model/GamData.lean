/-!
# Model of `GAMDataSource`: memory of the signals and change of state

`Source/Core/BareMetal/L5GAMs/GAMDataSource.cpp`.  The memory is one block of bytes; addresses are offsets in it.
-/
namespace Verif.GamData

/-- What the configuration says of a signal: the bytes of one sample (`GetSignalByteSize`), the number of samples
(`GetSignalNumberOfSamples`), the `Default` (absent, one that cannot be converted to the type and number of elements of the
signal, or its bytes, `269-323`) and the number of producers in each state (`GetSignalNumberOfProducers`, zero when it is not
known, `239-241`). -/
structure Sig where
  bytes : Nat
  samples : Nat
  default : Option (Option (List Nat))
  producers : Nat → Nat

/-- `GAMDataSource.h:169-200`: the signals, the signals read by each function, `allowMultipleSamples`,
`resetUnusedVariablesAtStateChange`, `forceResetUnusedVariablesAtStateChange`, `signalOffsets` and `signalMemory`. -/
structure Ds where
  sigs : List Sig
  inputs : List (List Nat)
  multiple : Bool
  reset : Bool
  force : Bool
  offsets : List Nat
  mem : List Nat

/-- `GAMDataSource.cpp:154-162`: the memory of a signal. -/
def sigSize (multiple : Bool) (s : Sig) : Nat := if multiple then s.bytes * s.samples % 2 ^ 32 else s.bytes

/-- `GAMDataSource.cpp:152-174`: the loop over the signals: the offsets and the size. -/
def layout (multiple : Bool) : List Sig → (memorySize : Nat) → Option (List Nat × Nat)
  | [], m => some ([], m)
  | s :: sigs, m =>
    if sigSize multiple s > 0 then
      (layout multiple sigs ((m + sigSize multiple s) % 2 ^ 32)).map fun r => (m :: r.1, r.2)
    else none

/-- `GAMDataSource.cpp:139-182` `AllocateMemory`, when it was not called before and the heap gives the memory. -/
def allocate (ds : Ds) : Option Ds :=
  if ds.sigs.length > 0 then
    (layout ds.multiple ds.sigs 0).map fun r => { ds with offsets := r.1, mem := List.replicate r.2 0 }
  else none

/-- `GAMDataSource.cpp:115-137` `GetSignalMemoryBuffer`. -/
def buffer (ds : Ds) (signal buffer : Nat) : Option Nat :=
  if buffer < 1 ∧ signal < ds.sigs.length then some (ds.offsets.getD signal 0) else none

/-- A write of bytes at an offset; `none` outside of the block. -/
def write (mem : List Nat) (off : Nat) (b : List Nat) : Option (List Nat) :=
  if off + b.length ≤ mem.length then some (mem.take off ++ b ++ mem.drop (off + b.length)) else none

/-- `GAMDataSource.cpp:229-325`: one signal read by a function (`GetSignalIndex` fails for one that is not there).  A `Default` that
does not fit is taken to write nothing (the code may write part of it before it answers false). -/
def prepareSignal (current : Nat) (ds : Ds) (signal : Nat) : Option (Bool × Ds) :=
  match ds.sigs[signal]? with
  | none => some (false, ds)
  | some s =>
    if s.producers current = 0 then
      match buffer ds signal 0 with
      | none => some (false, ds)
      | some off =>
        match s.default with
        | none => (write ds.mem off (List.replicate s.bytes 0)).map fun m => (true, { ds with mem := m })
        | some none => some (false, ds)
        | some (some b) => (write ds.mem off b).map fun m => (true, { ds with mem := m })
    else some (true, ds)

/-- `GAMDataSource.cpp:228-326`: the loop over the signals of a function. -/
def prepareFunction (current : Nat) (ds : Ds) : List Nat → Option (Bool × Ds)
  | [] => some (true, ds)
  | s :: rest =>
    (prepareSignal current ds s).bind fun r => if r.1 then prepareFunction current r.2 rest else some (false, r.2)

/-- `GAMDataSource.cpp:225-327`: the loop over the functions. -/
def prepareFunctions (current : Nat) (ds : Ds) : List (List Nat) → Option (Bool × Ds)
  | [] => some (true, ds)
  | f :: rest =>
    (prepareFunction current ds f).bind fun r => if r.1 then prepareFunctions current r.2 rest else some (false, r.2)

/-- `GAMDataSource.cpp:212-329` `PrepareNextState` (the next state is not used). -/
def prepare (current : Nat) (ds : Ds) : Option (Bool × Ds) :=
  if ds.reset ∨ ds.force then prepareFunctions current { ds with force := false } ds.inputs
  else some (true, ds)

/-- `GAMDataSource.cpp:184-209` `GetBrokerName`: `frequency` below zero or absent, the number of samples, the direction. -/
def brokerName (multiple negativeFrequency : Bool) (samples : Nat) (input : Bool) : Option String :=
  if negativeFrequency then
    if samples = 1 ∨ samples ≥ 1 ∧ multiple then some (if input then "MemoryMapInputBroker" else "MemoryMapOutputBroker")
    else none
  else none

/-- `GAMDataSource.cpp:364-406` `SetConfiguredDatabase`: for the states of each signal, the number of producers. -/
def producersOk (allowNoProducers : Bool) : List (List Nat) → Bool
  | [] => true
  | states :: rest => states.all (fun n => n > 0 || allowNoProducers) && producersOk allowNoProducers rest

end Verif.GamData
