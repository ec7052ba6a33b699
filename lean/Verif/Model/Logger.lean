import Verif.Model.FastResource

/-!
# Model of `BareMetal/L4Logger/Logger.cpp` and of the loop of `Scheduler/L4LoggerService/LoggerService.cpp`

The logger has two `FastResourceContainer`s (the model of C23): the indices of the free pages and those of the pages with
a message.  Here every call ends before the next one starts, so that each container is used by one thread, number 0; what
happens when calls overlap is a matter of the containers.

Simplifications: a pointer to a page is its position in `pages`; `ErrorInformation`, which is copied as a whole, is a
number; a C text is the array of bytes that holds it.
-/
namespace Verif.Logger
open Verif.FastResource

/-- `AdvancedErrorManagement.h:47` `MAX_ERROR_MESSAGE_SIZE` -/
def maxSize : Nat := 200

/-- `Logger.h:45-61` `LoggerPage` -/
structure Page where
  info : Nat
  text : List Nat
  index : Nat
deriving DecidableEq, Repr

structure Logger where
  n : Nat
  pages : Nat → Page
  /-- `pagesIndex` -/
  free : State
  /-- `logsIndex` -/
  logs : State

/-- A call of one thread on a container that nobody else uses, until it returns. -/
def call (s : State) (e : Ev) : State := run (step s e) (List.replicate (4 * s.L + 4) (.run 0))

/-- `FastResourceContainer.cpp:99-175` `Take`: `none` is 0xFFFFFFFF. -/
def take (s : State) : State × Option Nat :=
  let s' := call s (.take 0)
  (s', match s'.trace.getLast? with
    | some (.took _ p) => some p
    | _ => none)

/-- `FastResourceContainer.cpp:177-193` `Return` -/
def give (s : State) (p : Nat) : State := call s (.give 0 p)

/-- `Logger.cpp:71-79` The constructor. -/
def init (n : Nat) : Logger :=
  { n := n, pages := fun _ => ⟨0, List.replicate maxSize 0, 0⟩, free := FastResource.init 1 n false,
    logs := FastResource.init 1 n true }

def setPage (pages : Nat → Page) (p : Nat) (v : Page) : Nat → Page := fun i => if i = p then v else pages i

/-- `Logger.cpp:88-98` `GetPage`: `none` is NULL. -/
def getPage (l : Logger) : Logger × Option Nat :=
  let r := take l.free
  let l := { l with free := r.1 }
  match r.2 with
  | some p => if p < l.n then ({ l with pages := setPage l.pages p { l.pages p with index := p } }, some p) else (l, none)
  | none => (l, none)

/-- `Logger.cpp:100-106` `ReturnPage` -/
def returnPage (l : Logger) (p : Nat) : Logger := { l with free := give l.free (l.pages p).index }

/-- `Logger.cpp:108-112` `AddLogEntry` -/
def addLogEntry (l : Logger) (p : Nat) : Logger := { l with logs := give l.logs (l.pages p).index }

/-- `Logger.cpp:114-123` `GetLogEntry`: `none` is NULL. -/
def getLogEntry (l : Logger) : Logger × Option Nat :=
  let r := take l.logs
  let l := { l with logs := r.1 }
  match r.2 with
  | some p => if p < l.n then (l, some p) else (l, none)
  | none => (l, none)

/-- `Logger.cpp:129-131` `GetNumberOfLogs` -/
def getNumberOfLogs (l : Logger) : Int := getSize l.logs

/-- What a call does. -/
inductive Obs where
  /-- a message was put in a page -/
  | logged (info : Nat) (text : List Nat)
  /-- no page was available -/
  | lost (info : Nat) (text : List Nat)
  /-- `GetLogEntry` returned page `p`, that holds a message -/
  | got (p info : Nat) (text : List Nat)
  /-- `GetLogEntry` returned NULL -/
  | empty
  /-- `ReturnPage` was called -/
  | back (p : Nat)
  /-- the description was read beyond its end -/
  | oob
deriving DecidableEq, Repr

/-- `Logger.cpp:46-59` `LoggerErrorProcessFunction`: `description` is the array that holds the text. -/
def process (l : Logger) (info : Nat) (description : List Nat) : Logger × Obs :=
  let r := getPage l
  match r.2 with
  | some p =>
    if description.length < maxSize then (r.1, .oob)
    else
      let l := { r.1 with pages := setPage r.1.pages p { r.1.pages p with info := info, text := description.take maxSize } }
      (addLogEntry l p, .logged info (description.take maxSize))
  | none => (r.1, .lost info (description.take maxSize))

inductive Op where
  | log (info : Nat) (description : List Nat)
  | get
  | ret (p : Nat)
deriving DecidableEq, Repr

def apply (l : Logger) : Op → Logger × Obs
  | .log info d => process l info d
  | .get =>
    let r := getLogEntry l
    match r.2 with
    | some p => (r.1, .got p (r.1.pages p).info (r.1.pages p).text)
    | none => (r.1, .empty)
  | .ret p => (returnPage l p, .back p)

/-- A sequence of calls and what each did. -/
def calls (l : Logger) : List Op → Logger × List Obs
  | [] => (l, [])
  | o :: os =>
    let r := apply l o
    let t := calls r.1 os
    (t.1, r.2 :: t.2)

/-- `LoggerService.cpp:138-146` One execution of the service, with as many passages of the loop as given: the messages
that the consumers receive. -/
def drain (l : Logger) : Nat → Logger × List (Nat × List Nat)
  | 0 => (l, [])
  | m + 1 =>
    let r := getLogEntry l
    match r.2 with
    | some p =>
      let t := drain (returnPage r.1 p) m
      (t.1, ((r.1.pages p).info, (r.1.pages p).text) :: t.2)
    | none => (r.1, [])

end Verif.Logger
