/-!
# MemoryMapAsyncTriggerOutputBroker

`Source/Core/Scheduler/L5GAMs/MemoryMapAsyncTriggerOutputBroker.cpp`. Threads: the real-time thread calling `Execute` and the thread running
`BufferLoop`. A transition is one access to a shared index, one copy of a whole buffer, the marking of the buffers (lines 307-338, one step:
`c33_no_simultaneous_access_partial` shows that the other thread accesses none of these buffers meanwhile), or one region protected by
`fastSem`. The signals of one cycle are one value of type `α`; `trig` tells whether the trigger signal in it is positive (`none` is the zeroed memory,
line 212). Copies and `Synchronise` are taken to succeed; `destroying` is false; `FlushAllTriggers` and `ResetPreTriggerBuffers` are not called.
-/

namespace Verif.TriggerBroker

variable {α : Type}

/-- Where the real-time thread is: outside `Execute`; about to copy the signals (line 303); about to mark (307-338; `none` after an overrun); about to
advance `writeIdx` (339-351). -/
inductive Prod (α : Type) where
  | idle
  | copying (d : α)
  | marking (d : Option α)
  | closing (ok : Bool)

/-- Where the thread of `BufferLoop` is. -/
inductive Cons where
  | begin
  | scan (stop : Nat)
  | copying (stop : Nat)
  | clearing (stop : Nat)
  | advance (stop : Nat)
  | finish
  | waiting
  | reset
deriving DecidableEq

/-- `n`, `pre`, `post`: the numbers of buffers, of pre-trigger and of post-trigger buffers. -/
structure Cfg (α : Type) where
  n : Nat
  pre : Nat
  post : Nat
  trig : α → Bool

structure St (α : Type) where
  mem : Nat → Option α
  flag : Nat → Bool
  w : Nat
  r : Nat
  sem : Bool
  posted : Bool
  wasTrig : Bool
  postCount : Nat
  preWritten : Nat
  prod : Prod α
  cons : Cons

/-- `passed`: the consuming thread leaves a buffer behind (line 401). The others as in the model of the asynchronous broker. -/
inductive Obs (α : Type) where
  | called (d : α)
  | written (d : α)
  | overrun
  | returned (ok : Bool)
  | delivered (d : Option α)
  | passed
deriving DecidableEq

inductive Ev (α : Type) where
  | exec (d : α)
  | prod
  | cons
deriving DecidableEq

/-- `MemoryMapAsyncTriggerOutputBroker.cpp:139-162`: the parameters that are accepted. -/
def accepted (c : Cfg α) : Bool := decide (0 < c.n) && decide (c.pre < c.n) && decide (c.post < c.n) && decide (c.pre + c.post < c.n)

/-- Lines 200-265: after initialisation, before the thread has run. -/
def init (c : Cfg α) : St α :=
  ⟨fun _ => none, fun _ => false, 0, if c.pre = 0 then c.n - 1 else c.n - c.pre, false, false, false, 0, 0, .idle, .begin⟩

/-- After the first iteration of the thread, which now waits. -/
def started (c : Cfg α) : St α :=
  ⟨fun _ => none, fun _ => false, 0, (c.n - c.pre) % c.n, false, false, false, 0, 0, .idle, .waiting⟩

def upd {β : Type} (f : Nat → β) (i : Nat) (v : β) : Nat → β := fun j => if j = i then v else f j

/-- Lines 343-346. -/
def incr (n i : Nat) : Nat := if i + 1 = n then 0 else i + 1

/-- Lines 314-318: the buffer `j + 1` places before `w`. -/
def before (n w j : Nat) : Nat := if w < j + 1 then n + w - (j + 1) else w - (j + 1)

/-- Lines 313-323, the iterations from `j` on; `k` of them are left. -/
def markPre (n w written : Nat) : Nat → Nat → (Nat → Bool) → (Nat → Bool)
  | 0, _, flag => flag
  | k + 1, j, flag => markPre n w written k (j + 1) (if j < written then upd flag (before n w j) true else flag)

def trigOf (c : Cfg α) : Option α → Bool
  | none => false
  | some d => c.trig d

/-- Lines 307-338. -/
def mark (c : Cfg α) (s : St α) : St α :=
  let hit := trigOf c (s.mem s.w)
  let flag1 := upd s.flag s.w hit
  let preWritten' := if s.preWritten < c.pre then s.preWritten + 1 else s.preWritten
  if hit then
    { s with
      flag := if s.wasTrig then flag1 else markPre c.n s.w s.preWritten c.pre 0 flag1
      wasTrig := true
      postCount := c.post
      preWritten := preWritten' }
  else
    { s with
      flag := if s.postCount > 0 then upd flag1 s.w true else flag1
      wasTrig := false
      postCount := s.postCount - 1
      preWritten := preWritten' }

/-- Lines 289-354, `Execute`. -/
def prodStep (c : Cfg α) (s : St α) : Option (St α × List (Obs α)) :=
  match s.prod with
  | .idle => none
  | .copying d => some ({ s with mem := upd s.mem s.w (some d), prod := .marking (some d) }, [])
  | .marking (some d) => some ({ mark c s with prod := .closing true }, [.written d])
  | .marking none => some ({ mark c s with prod := .closing false }, [])
  | .closing true => some ({ s with w := incr c.n s.w, sem := true, posted := true, prod := .idle }, [.returned true])
  | .closing false => some ({ s with w := incr c.n s.w, prod := .idle }, [.returned false])

/-- Lines 361-376: where the pass stops. -/
def stopIdx (c : Cfg α) (w : Nat) : Nat :=
  let i := if w < c.pre then c.n + w - c.pre else w - c.pre
  if i = c.n then 0 else i

/-- Lines 357-435, `BufferLoop`. -/
def consStep (c : Cfg α) (s : St α) : Option (St α × List (Obs α)) :=
  match s.cons with
  | .begin => if c.n = 1 then some ({ s with r := 0, cons := .scan 1 }, []) else some ({ s with cons := .scan (stopIdx c s.w) }, [])
  | .scan stop =>
    if s.r ≠ stop then
      if s.flag s.r then some ({ s with cons := .copying stop }, []) else some ({ s with cons := .advance stop }, [])
    else some ({ s with cons := .finish }, [])
  | .copying stop => some ({ s with cons := .clearing stop }, [.delivered (s.mem s.r)])
  | .clearing stop => some ({ s with flag := upd s.flag s.r false, cons := .advance stop }, [])
  | .advance stop => some ({ s with r := if c.n > 1 then incr c.n s.r else s.r + 1, cons := .scan stop }, [.passed])
  | .finish => some ({ s with cons := .waiting }, [])
  | .waiting => if s.sem then some ({ s with cons := .reset }, []) else none
  | .reset => some ({ s with sem := if s.posted then s.sem else false, posted := false, cons := .begin }, [])

/-- `none`: the thread is not at that point, or blocked. -/
def step (c : Cfg α) (s : St α) : Ev α → Option (St α × List (Obs α))
  | .exec d =>
    match s.prod with
    | .idle =>
      if s.flag s.w then some ({ s with prod := .marking none }, [.called d, .overrun])
      else some ({ s with prod := .copying d }, [.called d])
    | _ => none
  | .prod => prodStep c s
  | .cons => consStep c s

/-- A schedule. -/
def run (c : Cfg α) (s : St α) : List (Ev α) → Option (St α × List (Obs α))
  | [] => some (s, [])
  | e :: es => (step c s e).bind fun (s', o) => (run c s' es).map fun (s'', os) => (s'', o ++ os)

end Verif.TriggerBroker
