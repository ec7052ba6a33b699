/-!
# Model of the connections of the HTTP service

`FileSystem/L4HttpService/HttpService.cpp`: `ServerCycle` and `ClientService`, called by the loop of
`Scheduler/L3Services/MultiClientEmbeddedThread.cpp`.  What the operating system and the protocol answer in each call is an input; what the service does with
the stream of a connection is a trace.  What is read and written is in C59, C60, C81 and C124, how many threads there are in C55.
-/
namespace Verif.HttpClients

/-- What is done with a stream: it is created, its connection is accepted, it is used, closed, freed. -/
inductive Act where
  | new | accept | use | close | free
deriving DecidableEq, Repr

/-- The answer of a call. -/
inductive Err where
  | none | timeout | completed | other
deriving DecidableEq, Repr

/-- The answers in a call that waits for a connection. -/
structure WaitOut where
  buffer : Bool
  connected : Bool
  tooMany : Bool

/-- The answers in a call that serves a connection. -/
structure ServeOut where
  blocking : Bool
  select : Bool
  ready : Bool
  header : Bool
  options : Bool
  flushed : Bool
  final : Bool
  keep : Bool
  closed : Bool

/-- `HttpService.cpp:232-262`: what is done with the new stream, and the answer. -/
def waitRequest (o : WaitOut) : List Act × Err :=
  if !o.buffer then ([.new], .other)
  else if !o.connected then ([.new, .free], .timeout)
  else if o.tooMany then ([.new, .accept, .use, .close, .free], .timeout)
  else ([.new, .accept], .none)

/-- `HttpService.cpp:147-223` `ClientService`. -/
def clientService (o : ServeOut) : List Act × Err :=
  if !o.blocking then ([.use], .other)
  else if !o.select then ([.use], .other)
  else if o.ready && !(o.header && o.options && o.flushed && o.final) then ([.use, .close, .free], .other)
  else if !o.keep then ([.use, .close, .free], if o.closed then .completed else .other)
  else ([.use], .none)

/-- Where the thread is: before a start, waiting for a connection, serving the one with the given number, or at its end. -/
inductive Mode where
  | idle | waiting | serving (c : Nat) | ended
deriving DecidableEq, Repr

/-- The thread: where it is, the number of the next stream, and all that was done with the streams. -/
structure Thread where
  mode : Mode
  next : Nat
  trace : List (Nat × Act)
deriving DecidableEq, Repr

/-- An input: whether the thread was told to stop, whether there are more threads than enough, and the answers in the call. -/
structure In where
  stop : Bool
  more : Bool
  wait : WaitOut
  serve : ServeOut

/-- `MultiClientEmbeddedThread.cpp:54-62`. -/
def start : Thread := ⟨.idle, 0, []⟩

/-- `MultiClientEmbeddedThread.cpp:63-120`: one test of the command and the call that follows it.  The call at the start and the one at the end do nothing
(`HttpService.cpp:227-229`). -/
def step (t : Thread) (i : In) : Thread :=
  match t.mode with
  | .ended => t
  | .idle => if i.stop || i.more then { t with mode := .ended } else { t with mode := .waiting }
  | .waiting =>
    if i.stop then { t with mode := .ended }
    else
      let r := waitRequest i.wait
      ⟨match r.2 with | .none => .serving t.next | .timeout => .waiting | _ => .idle, t.next + 1, t.trace ++ r.1.map fun a => (t.next, a)⟩
  | .serving c =>
    if i.stop then { t with mode := .ended }
    else
      let r := clientService i.serve
      ⟨match r.2 with | .none => .serving c | _ => .idle, t.next, t.trace ++ r.1.map fun a => (c, a)⟩

/-- A history of the thread. -/
def run (t : Thread) (is : List In) : Thread := is.foldl step t

end Verif.HttpClients
