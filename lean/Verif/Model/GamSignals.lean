/-!
# Model of `BareMetal/L5GAMs/GAM.cpp`: memory, samples and brokers of a function

The configured database is given as records (its moves and reads are C36); a missing value is `none`.  The two directions have the same code:
one is modelled.  Memory is one block; pointers are offsets in it.  Containers are lists (C06): `Delete` removes the first occurrence of
the object, `Insert` puts it at the position.
-/
namespace Verif.GamSignals

abbrev Text := List Char

/-- `GAM.cpp:78-102` `Initialise`: the result of `ReferenceContainer::Initialise` and, for each direction that is there, that of its copy.  The
moves succeed. -/
def initialise (container : Bool) (ins outs : Option Bool) : Bool :=
  let ret := match ins with
    | some w => w
    | none => container
  if ret then
    match outs with
    | some w => w
    | none => ret
  else false

/-- `GAM.cpp:235-251` `SetConfiguredDatabase`, one direction: the number of signals, from the number of children (32 bits). -/
def numberOfSignals (children : Nat) : Nat := (children + 4294967296 - 1) % 4294967296

/-- A node of `Memory.InputSignals`: the name of the data source, and `Samples` of the nodes in `Signals`, whose names are the indices. -/
structure MemNode where
  dataSource : Option Text
  signals : List (Nat × Option Nat)
  deriving DecidableEq, Repr

/-- `GAM.cpp:500-529`: the loop of `GetSignalNumberOfSamples`: the answer, and the variable, which was `old`. -/
def samplesLoop (ds : Text) (idx old : Nat) : List MemNode → Bool × Nat
  | [] => (true, old)
  | m :: ms =>
    match m.dataSource with
    | none => (false, old)
    | some t =>
      if t = ds then
        match m.signals.find? (fun p => p.1 == idx) with
        | some (_, some k) => (true, k)
        | _ => (false, old)
      else samplesLoop ds idx old ms

/-- `GAM.cpp:480-531` `GetSignalNumberOfSamples`: `ds` is the data source of the signal, if the signal is there; `memory` the node, if it is there. -/
def numberOfSamples (ds : Option Text) (idx old : Nat) (memory : Option (List MemNode)) : Bool × Nat :=
  match ds, memory with
  | some d, some l => samplesLoop d idx old l
  | _, _ => (false, old)

/-- A signal, for the memory: `ByteSize` (`none` also when the number of byte offsets cannot be read), and what `GetSignalNumberOfSamples` answers. -/
structure Sig where
  bytes : Option Nat
  samples : Bool × Nat
  deriving DecidableEq, Repr

/-- The memory of a direction: the block and the pointers. -/
structure Mem where
  block : Option (List Nat)
  pointers : Option (List Nat)
  deriving DecidableEq, Repr

/-- `GAM.cpp:126-148`: the loop over the signals: the answer and the pointers (32 bit offsets). -/
def pointerLoop : (offset : Nat) → List Sig → Bool × List Nat
  | _, [] => (true, [])
  | off, s :: ss =>
    match s.bytes with
    | none => (false, [off])
    | some b =>
      let this := if s.samples.1 then (b * s.samples.2) % 4294967296 else b
      let r := pointerLoop ((off + this) % 4294967296) ss
      (r.1, off :: r.2)

/-- `GAM.cpp:108-154` `AllocateInputSignalsMemory` (and `156-203`): `byteSize` is `ByteSize` of the direction; `room` whether `Malloc` succeeds. -/
def allocate (byteSize : Option Nat) (room : Bool) (sigs : List Sig) (m : Mem) : Bool × Mem :=
  match m.block with
  | some _ => (false, m)
  | none =>
    if sigs.length > 0 then
      match byteSize with
      | none => (false, m)
      | some total =>
        if room then
          let r := pointerLoop 0 sigs
          (r.1, ⟨some (List.replicate total 0), some r.2⟩)
        else (false, m)
    else (true, m)

/-- `GAM.cpp:213-222` `GetInputSignalMemory`, with `n` signals: `none` is the null pointer, `some none` a pointer never written. -/
def signalMemory (n : Nat) (m : Mem) (i : Nat) : Option (Option Nat) :=
  match m.pointers with
  | some p => if i < n then some p[i]? else none
  | none => none

/-- A broker: its identity and the name of its data source. -/
structure Broker where
  id : Nat
  ds : Text
  deriving DecidableEq, Repr

/-- `ReferenceContainer::Delete` and `Insert` at a position (C06). -/
def delete (l : List Broker) (b : Broker) : List Broker := l.eraseP (fun x => x.id == b.id)
def insertAt (l : List Broker) (b : Broker) (pos : Nat) : List Broker := l.take pos ++ [b] ++ l.drop pos

/-- `GAM.cpp:636-648`: the loop over the brokers from `n` on, `k` of them left; result: `count` and the brokers. -/
def sortInner (ds : Text) : (k n count : Nat) → List Broker → Nat × List Broker
  | 0, _, count, l => (count, l)
  | k + 1, n, count, l =>
    match l[n]? with
    | none => (count, l)
    | some b =>
      if b.ds = ds then sortInner ds k (n + 1) (count + 1) (if count ≠ n then insertAt (delete l b) b count else l)
      else sortInner ds k (n + 1) count l

/-- `GAM.cpp:629-656`: the loop over the signals, given by the names of their data sources. -/
def sortLoop : List (Option Text) → (count : Nat) → List Broker → Bool × List Broker
  | [], _, l => (true, l)
  | s :: ss, count, l =>
    match s with
    | none => (false, l)
    | some ds =>
      let r := sortInner ds (l.length - count) count count l
      if r.1 = r.2.length then (true, r.2) else sortLoop ss r.1 r.2

/-- `GAM.cpp:626-683` `SortBrokers`, one direction. -/
def sortBrokers (sigs : List (Option Text)) (l : List Broker) : Bool × List Broker := sortLoop sigs 0 l

end Verif.GamSignals
