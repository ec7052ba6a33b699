/-!
# MemoryMapAsyncOutputBroker

`Source/Core/Scheduler/L5GAMs/MemoryMapAsyncOutputBroker.cpp`. Threads: the real-time thread calling `Execute`, the thread running `BufferLoop`
and a thread calling `Flush`. A transition is one access to a shared flag or index, one copy of a whole buffer, or one region protected by
`fastSem` (a region is one step). The signals of one cycle are one value of type `α`. `MemoryOperationsHelper::Copy` and `Synchronise` of the data
source are taken to succeed. `destroying` is false.
-/

namespace Verif.AsyncBroker

variable {α : Type}

/-- Where the real-time thread is: outside `Execute`; about to copy the signals (line 224); about to set `toConsume` (line 227; `none` after an
overrun); about to advance `writeIdx` (lines 228-240). -/
inductive Prod (α : Type) where
  | idle
  | copying (d : α)
  | marking (d : Option α)
  | closing (ok : Bool)

/-- Where the thread of `BufferLoop` is: about to read `writeIdx` (line 269); at the head of the loop (line 280); about to copy (287-293); about to
clear `toConsume` (296); about to advance (298); after the loop (308); waiting (311); about to handle `posted` (318-327). -/
inductive Cons where
  | begin
  | scan (stop : Nat)
  | copying (stop : Nat)
  | clearing (stop : Nat)
  | advance (stop : Nat)
  | finish
  | waiting
  | reset
deriving DecidableEq

structure St (α : Type) where
  n : Nat
  ignore : Bool
  mem : Nat → Option α
  flag : Nat → Bool
  w : Nat
  r : Nat
  sem : Bool
  posted : Bool
  flushed : Bool
  prod : Prod α
  cons : Cons

/-- `called`: `Execute` is called with these signals. `written`: the buffer has been marked. `overrun`: lines 213-217. `returned`: `Execute` returns.
`delivered`: the buffer has been copied to the data source and `Synchronise` called. -/
inductive Obs (α : Type) where
  | called (d : α)
  | written (d : α)
  | overrun
  | returned (ok : Bool)
  | delivered (d : Option α)
deriving DecidableEq

inductive Ev (α : Type) where
  | exec (d : α)
  | prod
  | cons
  | flush
deriving DecidableEq

/-- After `InitWithBufferParameters` (lines 117-194), before the thread has run. -/
def init (n : Nat) (ignore : Bool) : St α :=
  ⟨n, ignore, fun _ => none, fun _ => false, 0, n - 1, false, false, true, .idle, .begin⟩

/-- The same after the first iteration of the thread, which now waits. -/
def started (n : Nat) (ignore : Bool) : St α :=
  ⟨n, ignore, fun _ => none, fun _ => false, 0, 0, false, false, true, .idle, .waiting⟩

def upd {β : Type} (f : Nat → β) (i : Nat) (v : β) : Nat → β := fun j => if j = i then v else f j

/-- Lines 232-235. -/
def incr (n i : Nat) : Nat := if i + 1 = n then 0 else i + 1

/-- Lines 208-243, `Execute`. -/
def prodStep (s : St α) : Option (St α × List (Obs α)) :=
  match s.prod with
  | .idle => none
  | .copying d => some ({ s with mem := upd s.mem s.w (some d), prod := .marking (some d) }, [])
  | .marking (some d) => some ({ s with flag := upd s.flag s.w true, prod := .closing true }, [.written d])
  | .marking none => some ({ s with flag := upd s.flag s.w true, prod := .closing false }, [])
  | .closing true => some ({ s with w := incr s.n s.w, sem := true, posted := true, prod := .idle }, [.returned true])
  | .closing false => some ({ s with w := incr s.n s.w, prod := .idle }, [.returned false])

/-- Lines 263-332, `BufferLoop`. -/
def consStep (s : St α) : Option (St α × List (Obs α)) :=
  match s.cons with
  | .begin => if s.n = 1 then some ({ s with r := 0, cons := .scan 1 }, []) else some ({ s with cons := .scan s.w }, [])
  | .scan stop =>
    if s.r ≠ stop then
      if s.flag s.r then some ({ s with cons := .copying stop }, []) else some ({ s with cons := .advance stop }, [])
    else some ({ s with cons := .finish }, [])
  | .copying stop => some ({ s with cons := .clearing stop }, [.delivered (s.mem s.r)])
  | .clearing stop => some ({ s with flag := upd s.flag s.r false, cons := .advance stop }, [])
  | .advance stop => some ({ s with r := if s.n > 1 then incr s.n s.r else s.r + 1, cons := .scan stop }, [])
  | .finish => some ({ s with flushed := true, cons := .waiting }, [])
  | .waiting => if s.sem then some ({ s with cons := .reset }, []) else none
  | .reset => some ({ s with sem := if s.posted then s.sem else false, posted := false, cons := .begin }, [])

/-- `none`: the thread is not at that point, or blocked. `flush` is lines 248-254; `Flush` returns once `flushed` holds. -/
def step (s : St α) : Ev α → Option (St α × List (Obs α))
  | .exec d =>
    match s.prod with
    | .idle =>
      if s.ignore = false ∧ s.flag s.w = true then some ({ s with prod := .marking none }, [.called d, .overrun])
      else some ({ s with prod := .copying d }, [.called d])
    | _ => none
  | .prod => prodStep s
  | .cons => consStep s
  | .flush => some ({ s with flushed := false, sem := true, posted := true }, [])

/-- A schedule. -/
def run (s : St α) : List (Ev α) → Option (St α × List (Obs α))
  | [] => some (s, [])
  | e :: es => (step s e).bind fun (s', o) => (run s' es).map fun (s'', os) => (s'', o ++ os)

end Verif.AsyncBroker
