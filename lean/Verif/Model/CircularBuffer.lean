/-!
# CircularBufferThreadInputDataSource

`Source/Core/Scheduler/L5GAMs/CircularBufferThreadInputDataSource.cpp`: one signal, read by one broker that makes one
copy of `N` samples in each cycle (`nBrokerOpPerSignal` is 1). Threads: the thread of `Execute` (the driver) and the
real-time thread, which calls `Synchronise` or `PrepareInputOffsets`, then `GetInputOffset`, the copy and
`TerminateInputCopy`. A transition is one access to `isRefreshed` under the mutex, or the transfer of one sample from or
to the memory. `DriverRead` always succeeds and there is no time stamp signal; `stop` is 0; `Execute` has passed
its startup stage.
-/
namespace Verif.CircularBuffer

variable {α : Type}

/-- `n` is `numberOfBuffers`, `N` the number of samples of the function signal; `sync` tells whether the signal is `syncSignal`
(then `triggerAfterNSamples` is `N`, line 782). -/
structure Cfg where
  n : Nat
  N : Nat
  sync : Bool
  getFirst : Bool

/-- The driver: before `DriverRead` (line 852); before the test of `isRefreshed` (914); before setting it (921). -/
inductive Drv where
  | idle
  | wrote
  | checked
deriving DecidableEq

/-- The real-time thread: outside; in the loop 255-269 or 285-299; in the loop 315-334; copying; in the loop 989-998. -/
inductive Cons (α : Type) where
  | idle
  | scan (k : Nat)
  | wait (left : Nat)
  | copy (j : Nat) (acc : List (Option α))
  | clear (idx : Nat)

structure St (α : Type) where
  mem : Nat → Option α
  flag : Nat → Bool
  cur : Nat
  last : Nat
  last1 : Nat
  drv : Drv
  cons : Cons α

/-- Observations: a sample arrives in memory; the overrun test (and its result); the sample is announced; a
read begins, its loop of line 255 or 285 ends, `Synchronise` fails; the samples given to the function; the release of one
buffer; the end of the read. -/
inductive Obs (α : Type) where
  | produced (d : α)
  | checked (overrun : Bool)
  | marked
  | started
  | scanned
  | failed
  | read (l : List (Option α))
  | released
  | ended
deriving DecidableEq

/-- Lines 385-387 and 421; the memory is zeroed. -/
def init (cfg : Cfg) : St α :=
  { mem := fun _ => none, flag := fun _ => false, cur := 0, last := cfg.n - 1, last1 := 0, drv := .idle, cons := .idle }

/-- Lines 256-259, 923-926, 990-993: the following buffer. -/
def next (n i : Nat) : Nat := if i + 1 ≥ n then 0 else i + 1

/-- Lines 307-310: `stepsBack` buffers before (32-bit arithmetic). -/
def back (n i b : Nat) : Nat :=
  let x := (i + 2 ^ 32 - b) % 2 ^ 32
  if x ≥ n then (x + n) % 2 ^ 32 else x

/-- Lines 820-823 `GetInputOffset`, in samples. -/
def offset (n last N : Nat) : Nat :=
  let x := (last + 2 ^ 32 - N + 1) % 2 ^ 32
  if x ≥ n then (x + n) % 2 ^ 32 else x

inductive Ev (α : Type) where
  | write (d : α)
  | check
  | mark
  | start
  | scan
  | wait
  | copy
  | clear
deriving DecidableEq

def setAt {β : Type} (f : Nat → β) (i : Nat) (v : β) : Nat → β := fun j => if j = i then v else f j

/-- The end of the loop of line 255 or 285, after `k` steps; lines 301-313 when the signal is the synchronising one. -/
def scanEnd (cfg : Cfg) (s : St α) (k : Nat) : St α × List (Obs α) :=
  if cfg.sync then
    if k < cfg.n then ({ s with last := back cfg.n s.last (k % cfg.N), cons := .wait cfg.N }, [.scanned])
    else ({ s with cons := .idle }, [.failed])
  else ({ s with cons := .copy 0 [] }, [.scanned])

/-- One transition: `write` lines 851-852, `check` 908-919, `mark` 920-926, `start` 251 or 280-281, `scan` 255-269 or
285-299, `wait` 315-334 (`lastReadBuffer` is advanced when the sample has arrived, not before waiting for it: nobody else
reads it), `copy` the copy of the broker, sample by sample, `clear` 987-998. -/
def step (cfg : Cfg) (s : St α) : Ev α → Option (St α × List (Obs α))
  | .write d =>
    if s.drv = .idle then some ({ s with mem := setAt s.mem s.cur (some d), drv := .wrote }, [.produced d]) else none
  | .check =>
    if s.drv = .wrote then some ({ s with drv := .checked }, [.checked (s.flag s.cur)]) else none
  | .mark =>
    if s.drv = .checked then
      some ({ s with flag := setAt s.flag s.cur true, cur := next cfg.n s.cur, drv := .idle }, [.marked])
    else none
  | .start =>
    match s.cons with
    | .idle =>
      some ({ s with last1 := s.last, cons := if cfg.sync && cfg.getFirst then .wait cfg.N else .scan 0 }, [.started])
    | _ => none
  | .scan =>
    match s.cons with
    | .scan k =>
      if k < cfg.n then
        if s.flag (next cfg.n s.last) then
          some ({ s with last := next cfg.n s.last, cons := .scan (k + 1) }, [])
        else some (scanEnd cfg s k)
      else some (scanEnd cfg s k)
    | _ => none
  | .wait =>
    match s.cons with
    | .wait left =>
      if s.flag (next cfg.n s.last) then
        some ({ s with last := next cfg.n s.last, cons := if left ≤ 1 then .copy 0 [] else .wait (left - 1) }, [])
      else some (s, [])
    | _ => none
  | .copy =>
    match s.cons with
    | .copy j acc =>
      if j < cfg.N then
        some ({ s with cons := .copy (j + 1) (acc ++ [s.mem ((offset cfg.n s.last cfg.N + j) % cfg.n)]) }, [])
      else some ({ s with cons := .clear s.last1 }, [.read acc])
    | _ => none
  | .clear =>
    match s.cons with
    | .clear idx =>
      if idx ≠ s.last then
        some ({ s with flag := setAt s.flag (next cfg.n idx) false, cons := .clear (next cfg.n idx) }, [.released])
      else some ({ s with cons := .idle }, [.ended])
    | _ => none

/-- A run, with the observations appended to the trace. -/
def run (cfg : Cfg) (s : St α) (tr : List (Obs α)) : List (Ev α) → Option (St α × List (Obs α))
  | [] => some (s, tr)
  | e :: es => (step cfg s e).bind fun r => run cfg r.1 (tr ++ r.2) es

end Verif.CircularBuffer
