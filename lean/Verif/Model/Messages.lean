/-!
# Model of message dispatch and reply handling

Filters do not modify the pool they are installed in while they consume a message; pool locks succeed.
`ReferenceContainer::Delete(ref)` removes the first entry referring to that object (C06).
-/
namespace Verif.Msg

/-! ## Error codes -/

/-- `BareMetal/L0Types/ErrorType.h:57-190,535-589`: the union of all error bits, read as an integer. -/
abbrev Err := BitVec 32

def fatalErrorBit : Nat := 0
def parametersErrorBit : Nat := 4
def timeoutBit : Nat := 9
def communicationErrorBit : Nat := 10
def unsupportedFeatureBit : Nat := 12
def warningBit : Nat := 16
def notCompletedBit : Nat := 18

/-- `err.bit = b` (`BitBoolean::operator=`, C10). -/
def Err.put (e : Err) (k : Nat) (b : Bool) : Err :=
  if b then e ||| ((1 : BitVec 32) <<< k) else e &&& ~~~((1 : BitVec 32) <<< k)

/-- `ErrorType.h:544-546` `ErrorsCleared`. -/
def Err.cleared (e : Err) : Bool := e == 0

/-- `ErrorManagement::NotCompleted`. -/
def notCompleted : Err := (1 : BitVec 32) <<< notCompletedBit

/-! ## The pool -/

/-- An entry of the pool: identity, whether it is a `MessageFilter` at all (`messageFilter = Get(i)` is a dynamic cast),
`IsPermanentFilter` and what `ConsumeMessage` answers to the message being dispatched. -/
structure Filter where
  id : Nat
  isFilter : Bool
  permanent : Bool
  answer : Err
deriving DecidableEq

/-- State of the loop of `ReceiveMessage`: `err`, `messageFilter`, `matched`, `partialMatched` and, as a ghost, the
filters whose `ConsumeMessage` has been called, in order. -/
structure Loop where
  err : Err
  last : Option Filter
  matched : Bool
  part : Bool
  offered : List Nat
deriving DecidableEq

/-- `BareMetal/L4Messages/MessageFilterPool.cpp:60-70`: the loop over the entries. -/
def loop : List Filter → Loop → Loop
  | [], l => l
  | f :: fs, l =>
    if !l.matched && !l.part then
      if f.isFilter then
        loop fs ⟨f.answer, some f, f.answer.cleared, f.answer == notCompleted, l.offered ++ [f.id]⟩
      else loop fs { l with last := none }
    else l

/-- `ReferenceContainer.cpp:231-237` `Delete(ref)`: the first entry that refers to the object is removed. -/
def deleteRef (id : Nat) : List Filter → Bool × List Filter
  | [] => (false, [])
  | f :: fs => if f.id = id then (true, fs) else ((deleteRef id fs).1, f :: (deleteRef id fs).2)

/-- `MessageFilterPool.cpp:53-88` `ReceiveMessage`: error, pool afterwards, filters called.  `none` is a NULL
dereference of `messageFilter`. -/
def receive (pool : List Filter) : Option (Err × List Filter × List Nat) :=
  let l := loop pool ⟨0, none, false, false, []⟩
  if l.matched then
    l.last.bind fun f =>
      if !f.permanent then
        some (l.err.put timeoutBit (!(deleteRef f.id pool).1), (deleteRef f.id pool).2, l.offered)
      else some (l.err, pool, l.offered)
  else if l.part then some (l.err.put notCompletedBit false, pool, l.offered)
  else some (l.err.put unsupportedFeatureBit true, pool, l.offered)

/-! ## Waiting for a reply -/

/-- What the waiting thread sees: the time of the first reading of the counter, of the first look at the flag, and for
the `i`-th poll (from 0) the times of the reading of the counter and of the look at the flag; and the time at which the
other thread sets the flag, if ever.  Counter differences do not wrap. -/
structure Timeline where
  start : Nat
  look0 : Nat
  clock : Nat → Nat
  look : Nat → Nat
  arrival : Option Nat

/-- The flag as seen at time `t`. -/
def Timeline.seen (tl : Timeline) (t : Nat) : Bool :=
  match tl.arrival with
  | some a => decide (a ≤ t)
  | none => false

/-- `BareMetal/L4Messages/MessageI.cpp:184-191`: the polling loop of `WaitForReply`, `i` polls done, state `err`,
`isReply`.  `ticks` is `none` for `TTInfiniteWait`, else `maxWait.HighResolutionTimerTicks()`.  The result is the error
and the number of polls; `none` if the fuel ends while it is still waiting. -/
def replyLoop (tl : Timeline) (ticks : Option Nat) : Nat → Nat → Err → Bool → Option (Err × Nat)
  | fuel, i, err, isReply =>
    if err.cleared && !isReply then
      match fuel with
      | 0 => none
      | fuel + 1 =>
        replyLoop tl ticks fuel (i + 1)
          (match ticks with
            | none => err
            | some n => err.put timeoutBit (decide (n > tl.clock i - tl.start)))
          (tl.seen (tl.look i))
    else some (err, i)

/-- `MessageI.cpp:159-194` `WaitForReply`. `valid` is `message.IsValid()`, `expects` is `message->ExpectsReply()`. -/
def waitForReply (valid expects : Bool) (tl : Timeline) (ticks : Option Nat) (fuel : Nat) : Option (Err × Nat) :=
  let err : Err := if valid then 0 else Err.put 0 parametersErrorBit true
  let err : Err := if err.cleared && !expects then err.put communicationErrorBit true else err
  replyLoop tl ticks fuel 0 err (err.cleared && tl.seen tl.look0)

/-- `BareMetal/L4Messages/ReplyMessageCatcherMessageFilter.cpp:88-94`: the polling loop of `Wait`. -/
def catchLoop (tl : Timeline) (ticks : Option Nat) : Nat → Nat → Err → Nat → Option (Err × Nat)
  | fuel, i, err, lookAt =>
    if err.cleared && !(tl.seen lookAt) then
      match fuel with
      | 0 => none
      | fuel + 1 =>
        catchLoop tl ticks fuel (i + 1)
          (match ticks with
            | none => err
            | some n => err.put timeoutBit (decide (tl.clock i - tl.start > n)))
          (tl.look i)
    else some (err, i)

/-- `ReplyMessageCatcherMessageFilter.cpp:80-97` `Wait`. -/
def catcherWait (tl : Timeline) (ticks : Option Nat) (fuel : Nat) : Option (Err × Nat) :=
  catchLoop tl ticks fuel 0 0 tl.look0

/-- `ReplyMessageCatcherMessageFilter.cpp:58-78` `ConsumeMessage`: answer and `caught`. -/
def catcherConsume (toCatch : Nat) (caught : Bool) (msg : Nat) (isReply : Bool) : Err × Bool :=
  if msg = toCatch then (if isReply then 0 else Err.put 0 warningBit true, true)
  else (Err.put 0 unsupportedFeatureBit true, caught)

/-! ## The multi-reply catcher -/

/-- `messagesToCatch`: the entries, `none` for an object that is not a `Message`; and `eventSem` set or not. -/
structure Multi where
  toCatch : List (Option Nat)
  hasSem : Bool

/-- `Scheduler/L4Messages/QueuedReplyMessageCatcherFilter.cpp:80-93`: the loop: found, an entry was not a message. -/
def searchLoop (msg : Nat) : List (Option Nat) → Bool × Bool
  | [] => (false, false)
  | none :: _ => (false, true)
  | some m :: ms => if m = msg then (true, false) else searchLoop msg ms

/-- `QueuedReplyMessageCatcherFilter.cpp:68-116` `ConsumeMessage`: answer, number of `Post`s, and the new state.
`Post` succeeds. -/
def multiConsume (c : Multi) (msg : Nat) (isReply : Bool) : Err × Nat × Multi :=
  if !isReply then (Err.put 0 warningBit true, 0, c)
  else
    let r := searchLoop msg c.toCatch
    if r.1 then
      let c' : Multi := { c with toCatch := c.toCatch.erase (some msg) }
      if c'.toCatch.length = 0 then
        if c.hasSem then (0, 1, c') else (Err.put 0 fatalErrorBit true, 0, c')
      else (Err.put 0 notCompletedBit true, 0, c')
    else (Err.put 0 unsupportedFeatureBit true, 0, c)

/-- The catcher installed (`some`) in a pool, or removed from it. Messages reach it through `ReceiveMessage`
(`MessageFilterPool.cpp:60-88`): the filter, which is not permanent (line 45), is removed when it answers without error,
and stays when it answers anything else.  The message may have been accepted by an earlier filter of the pool, in which
case the catcher does not see it and the arrival is not in the list. -/
def multiRun : Option Multi → List (Nat × Bool) → List (Err × Nat) × Option Multi
  | c, [] => ([], c)
  | none, _ :: as => let r := multiRun none as; ((Err.put 0 unsupportedFeatureBit true, 0) :: r.1, r.2)
  | some c, a :: as =>
    let s := multiConsume c a.1 a.2
    let r := multiRun (if s.1.cleared then none else some s.2.2) as
    ((s.1, s.2.1) :: r.1, r.2)

end Verif.Msg
