/-!
# Model of `BareMetal/L5GAMs/BrokerI.cpp`, `MemoryMapBroker.cpp`, `MemoryMapInputBroker.cpp`, `MemoryMapOutputBroker.cpp`

Memory is one array of bytes indexed by address; address 0 is NULL.  `uint32` offsets and products do not wrap.
Queries to the data source (index of the function, of the signal, supported broker class, ...) succeed unless said
otherwise; what they answer is in `Signal`.
-/
namespace Verif.Broker

abbrev Mem := Nat → UInt8

/-- `MemoryOperationsHelper_CLIB_Generic.cpp:52-70` `Copy` (memcpy): result and memory. -/
def copy (m : Mem) (dst src n : Nat) : Bool × Mem :=
  if src ≠ 0 ∧ dst ≠ 0 then (true, fun a => if dst ≤ a ∧ a < dst + n then m (src + (a - dst)) else m a) else (false, m)

/-- What the data source answers about one signal of the function: `IsSupportedBroker`,
`GetFunctionSignalGAMMemoryOffset`, `GetSignalIndex`, `GetSignalByteSize`, `GetFunctionSignalSamples` and the list of
`GetFunctionSignalByteOffsetInfo` (start, size), whose length is `GetFunctionSignalNumberOfByteOffsets`. -/
structure Signal where
  supported : Bool
  gamOffset : Nat
  idx : Nat
  byteSize : Nat
  samples : Nat
  ranges : List (Nat × Nat)

/-- `BrokerI.h` `memoryInfo`: `copyByteSize`, `copyOffset`, `functionSignalPointers`, `copySignalIndex`. -/
structure Info where
  size : Nat
  offset : Nat
  gam : Nat
  idx : Nat
deriving DecidableEq

/-! ## `InitFunctionPointers` -/

/-- `BrokerI.cpp:139-157`: the number of copies. -/
def count : List Signal → Nat
  | [] => 0
  | s :: ss =>
    if s.supported then (if s.ranges.length > 1 then s.ranges.length * s.samples else 1) + count ss else count ss

/-- `BrokerI.cpp:225-235`: the copies of one range, `h` samples to go: entries and the next GAM offset. -/
def rangeCopies (gam idx byteSize size : Nat) : Nat → Nat → Nat → List Info × Nat
  | 0, _, mo => ([], mo)
  | h + 1, start, mo =>
    let r := rangeCopies gam idx byteSize size h (start + byteSize) (mo + size)
    (⟨size, start, gam + mo, idx⟩ :: r.1, r.2)

/-- `BrokerI.cpp:220-237`: the loop over the ranges. -/
def rangesCopies (gam : Nat) (s : Signal) (samples : Nat) : List (Nat × Nat) → Nat → List Info
  | [], _ => []
  | r :: rs, mo =>
    let x := rangeCopies gam s.idx s.byteSize r.2 samples r.1 mo
    x.1 ++ rangesCopies gam s samples rs x.2

/-- `BrokerI.cpp:202`: a single range that is the whole signal. -/
def Signal.noRanges (s : Signal) : Bool := s.ranges.length == 1 && s.ranges.head?.map (·.2) == some s.byteSize

/-- `BrokerI.cpp:191-195`. -/
def Signal.nSamples (s : Signal) : Nat := if s.samples = 0 then 1 else s.samples

/-- `BrokerI.cpp:196-238`: the entries written for one signal; `none` if there is no range at all (line 200 fails). -/
def signalCopies (gam : Nat) (s : Signal) : Option (List Info) :=
  match s.ranges with
  | [] => none
  | r :: _ =>
    if s.noRanges then some [⟨r.2 * s.nSamples, r.1, gam + s.gamOffset, s.idx⟩]
    else some (rangesCopies gam s s.nSamples s.ranges s.gamOffset)

/-- `BrokerI.cpp:169-240`: all entries written, and whether `ret` stayed true. -/
def fill (gam : Nat) : List Signal → List Info × Bool
  | [] => ([], true)
  | s :: ss =>
    if s.supported then
      match signalCopies gam s with
      | none => ([], false)
      | some l => let r := fill gam ss; (l ++ r.1, r.2)
    else fill gam ss

/-- Outcome of `InitFunctionPointers`: the table, failure, or a write past the end of the table. -/
inductive Outcome where
  | ok (numberOfCopies : Nat) (table : List Info)
  | fail
  | overflow
deriving DecidableEq

/-- `BrokerI.cpp:108-243` `InitFunctionPointers`.  The table has `count` entries; the loop writes as many as `fill`. -/
def initFunctionPointers (gam : Nat) (ss : List Signal) : Outcome :=
  if count ss > 0 then
    if gam = 0 then .fail
    else if (fill gam ss).1.length > count ss then .overflow
    else if (fill gam ss).2 then .ok (count ss) (fill gam ss).1 else .fail
  else .ok 0 []

/-! ## The optimised table -/

/-- `BrokerI.h` `basicCopyTable`. -/
structure Raw where
  size : Nat
  offset : Nat
  idx : Nat
  ds : Nat
  gam : Nat
deriving DecidableEq

/-- `BrokerI.cpp:347-376` `GetNumberOfRawCopies`. -/
def rawCount : List Signal → Nat
  | [] => 0
  | s :: ss => if s.supported then s.ranges.length * s.samples + rawCount ss else rawCount ss

/-- `BrokerI.cpp:439-462`: one signal.  `addr` is `GetSignalMemoryBuffer(signalIdx, 0)`. -/
def rawSignal (gam addr : Nat) (s : Signal) : List Raw :=
  (rangesCopies gam s s.nSamples s.ranges s.gamOffset).map fun i => ⟨i.size, i.offset, i.idx, addr + i.offset, i.gam⟩

/-- `BrokerI.cpp:388-467` `FillCopyTable`; `none` if an address is not available. -/
def fillRaw (addr : Nat → Option Nat) (gam : Nat) : List Signal → Option (List Raw)
  | [] => some []
  | s :: ss =>
    if s.supported then
      (addr s.idx).bind fun a => (fillRaw addr gam ss).map fun r => rawSignal gam a s ++ r
    else fillRaw addr gam ss

/-- `BrokerI.cpp:499-520`: merge by GAM address. -/
def merge : List Raw → List Raw → List Raw
  | [], r => r
  | l, [] => l
  | a :: l, b :: r => if a.gam ≤ b.gam then a :: merge l (b :: r) else b :: merge (a :: l) r
termination_by l r => l.length + r.length

/-- `BrokerI.cpp:481-528`: one merge, from `bcp` into `sbcp`. -/
def mergeStep (bcp : List Raw) (cs left : Nat) (sbcp : List (Option Raw)) : List (Option Raw) :=
  let e := bcp.length
  let mid := if left + cs - 1 < e - 1 then left + cs - 1 else e - 1
  let right := if left + 2 * cs - 1 < e - 1 then left + 2 * cs - 1 else e - 1
  let n1 := mid - left + 1
  let n2 := right - mid
  if n1 > 0 ∧ n2 > 0 then
    sbcp.take left ++ (merge ((bcp.drop left).take n1) ((bcp.drop (mid + 1)).take n2)).map some ++ sbcp.drop (right + 1)
  else sbcp

/-- `BrokerI.cpp:480-529`: one pass. -/
def pass (bcp : List Raw) (cs : Nat) : Nat → Nat → List (Option Raw) → List (Option Raw)
  | 0, _, sbcp => sbcp
  | fuel + 1, left, sbcp =>
    if left < bcp.length - 1 then pass bcp cs fuel (left + 2 * cs) (mergeStep bcp cs left sbcp) else sbcp

/-- `BrokerI.cpp:479-530`: all passes.  `bcp` is not updated between the passes. -/
def passes (bcp : List Raw) : Nat → Nat → List (Option Raw) → List (Option Raw)
  | 0, _, sbcp => sbcp
  | fuel + 1, cs, sbcp =>
    if cs < bcp.length then passes bcp fuel (2 * cs) (pass bcp cs bcp.length 0 sbcp) else sbcp

/-- `BrokerI.cpp:470-540` `SortByGAMAddress`.  An entry of `sbcp` that was never written is `none`. -/
def sortByGAM (bcp : List Raw) : List (Option Raw) :=
  match bcp with
  | [] => []
  | b :: bs => passes (b :: bs) (b :: bs).length 1 (some b :: bs.map fun _ => none)

/-- `BrokerI.cpp:313-328`: coalescing; `prev` is `bcp[i-1]`, `start` the first entry of the current group. -/
def coalesceFrom (prev start : Raw) (accum : Nat) : List Raw → List Info
  | [] => [⟨accum, start.offset, start.gam, start.idx⟩]
  | r :: rs =>
    if prev.gam + prev.size = r.gam ∧ prev.ds + prev.size = r.ds then coalesceFrom r start (accum + r.size) rs
    else ⟨accum, start.offset, start.gam, start.idx⟩ :: coalesceFrom r r r.size rs

def coalesce : List Raw → List Info
  | [] => []
  | r :: rs => coalesceFrom r r r.size rs

/-- `BrokerI.cpp:246-337` `InitFunctionPointersOptim`. -/
def initOptim (addr : Nat → Option Nat) (gam : Nat) (ss : List Signal) : Outcome :=
  if rawCount ss > 0 then
    if gam = 0 then .fail
    else match fillRaw addr gam ss with
      | none => .fail
      | some raw =>
        if raw.length > rawCount ss then .overflow
        else .ok (coalesce ((sortByGAM raw).filterMap id)).length (coalesce ((sortByGAM raw).filterMap id))
  else .ok 0 []

/-! ## Execution -/

/-- `MemoryMapBroker.h` `MemoryMapBrokerCopyTableEntry`. -/
structure Entry where
  size : Nat
  gam : Nat
  ds : Nat
deriving DecidableEq

/-- `MemoryMapBroker.cpp:117-133`: the entries of one state buffer. -/
def row (addr : Nat → Nat → Option Nat) (c0 : Nat) : List Info → Option (List Entry)
  | [] => some []
  | i :: is => (addr i.idx c0).bind fun a => (row addr c0 is).map fun r => ⟨i.size, i.gam, a + i.offset⟩ :: r

/-- `MemoryMapBroker.cpp:115-135`: `n` state buffers from `c0` on. -/
def table (addr : Nat → Nat → Option Nat) (is : List Info) : Nat → Nat → Option (List Entry)
  | 0, _ => some []
  | n + 1, c0 => (row addr c0 is).bind fun r => (table addr is n (c0 + 1)).map fun t => r ++ t

/-- `MemoryMapBroker.cpp:69-137` `Init`, from the table of copies on. -/
def initTable (addr : Nat → Nat → Option Nat) (is : List Info) (numberOfBuffers : Nat) : Option (List Entry) :=
  if is.length > 0 then table addr is numberOfBuffers 0 else none

/-- `MemoryMapBroker.cpp:69-137` `Init`: the number of copies and the table, with (`GAMDataSource.cpp:338,354`) or without the
optimisation of the copies. -/
def init (optim : Bool) (addr : Nat → Nat → Option Nat) (gam : Nat) (ss : List Signal) (numberOfBuffers : Nat) : Option (Nat × List Entry) :=
  match (if optim then initOptim (fun i => addr i 0) gam ss else initFunctionPointers gam ss) with
  | .ok n is => (initTable addr is numberOfBuffers).map fun t => (n, t)
  | _ => none

/-- `MemoryMapInputBroker.cpp:57-62`, copies `n`, `n+1`, ... ; `none` is a read outside the table. -/
def execIn (t : List Entry) (copies buf : Nat) : Nat → Nat → Mem → Option (Bool × Mem)
  | 0, _, m => some (true, m)
  | k + 1, n, m =>
    (t[n]?).bind fun e => (t[buf * copies + n]?).bind fun d =>
      let r := copy m e.gam d.ds e.size
      if r.1 then execIn t copies buf k (n + 1) r.2 else some (false, r.2)

/-- `MemoryMapInputBroker.cpp:52-64` `Execute`. -/
def inputExecute (t : List Entry) (copies buf : Nat) (m : Mem) : Option (Bool × Mem) := execIn t copies buf copies 0 m

/-- `MemoryMapOutputBroker.cpp:57-62`. -/
def execOut (t : List Entry) (copies buf : Nat) : Nat → Nat → Mem → Option (Bool × Mem)
  | 0, _, m => some (true, m)
  | k + 1, n, m =>
    (t[n]?).bind fun e => (t[buf * copies + n]?).bind fun d =>
      let r := copy m d.ds e.gam e.size
      if r.1 then execOut t copies buf k (n + 1) r.2 else some (false, r.2)

/-- `MemoryMapOutputBroker.cpp:52-64` `Execute`. -/
def outputExecute (t : List Entry) (copies buf : Nat) (m : Mem) : Option (Bool × Mem) := execOut t copies buf copies 0 m

/-- `MemoryMapSynchronisedInputBroker.cpp:52-64` `Execute` (and `MemoryMapSynchronisedOutputBroker.cpp` has no second call): the
data source calls are outcomes. -/
def synchronisedExecute (synchronise terminated : Bool) (t : List Entry) (copies buf : Nat) (m : Mem) : Option (Bool × Mem) :=
  if synchronise then
    (inputExecute t copies buf m).map fun r => if r.1 then (terminated, r.2) else r
  else some (false, m)

end Verif.Broker
