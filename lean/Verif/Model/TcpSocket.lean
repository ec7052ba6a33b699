/-!
# Model of the TCP socket

`FileSystem/L1Portability/Environment/Linux/BasicTCPSocket.cpp` and `BasicSocket.cpp`.  The operating system is given: each call comes with its answer.  What it
keeps for a socket is the mode, the two limits of time, where zero is no limit, the bytes that arrived and are not read, and the bytes that were sent.  Times are
in microseconds.  For each call that can wait the model keeps the longest time that it can last, `none` when there is none.
-/
namespace Verif.TcpSocket

abbrev Byte := UInt8

/-- A socket of the operating system. -/
structure Os where
  blocking : Bool
  rcv : Nat
  snd : Nat
  pending : List Byte
  sent : List Byte

/-- `BasicSocket.h`: `connectionSocket`, when it is valid, and `isBlocking`. -/
structure Sock where
  os : Option Os
  isBlocking : Bool

/-- The answers of the operating system to a transfer: it accepts the limit of time, the number of bytes that it has ready (`none` is an error), and it accepts
to remove the limit. -/
structure Io where
  setOk : Bool
  ready : Option Nat
  resetOk : Bool

/-- A timeout; `none` is one that is not finite (`TimeoutType.h`: `IsFinite`). -/
abbrev Timeout := Option Nat

/-- What an operation gives. -/
structure Out (α : Type) where
  sock : Sock
  value : α
  answer : Bool
  waits : List (Option Nat)

/-- The longest time of a `recv` or `send` with the limit `r`. -/
def limit (o : Os) (r : Nat) : Option Nat := if o.blocking then (if r = 0 then none else some r) else some 0

/-- The operating system call `recv`: how many bytes it takes. -/
def taken (o : Os) (size k : Nat) : Nat := min k (min size o.pending.length)

/-- `BasicTCPSocket.cpp:323-340` `Peek`. -/
def peek (size : Nat) (ready : Option Nat) (s : Sock) : Out (List Byte) :=
  match s.os with
  | none => ⟨s, [], false, []⟩
  | some o => match ready with
    | none => ⟨s, [], false, [limit o o.rcv]⟩
    | some k => ⟨s, o.pending.take (taken o size k), decide (taken o size k > 0), [limit o o.rcv]⟩

/-- `BasicTCPSocket.cpp:342-371` `Read`. -/
def read (size : Nat) (ready : Option Nat) (s : Sock) : Out (List Byte) :=
  match s.os with
  | none => ⟨s, [], false, []⟩
  | some o => match ready with
    | none => ⟨s, [], false, [limit o o.rcv]⟩
    | some k => ⟨{ s with os := some { o with pending := o.pending.drop (taken o size k) } }, o.pending.take (taken o size k),
        decide (taken o size k > 0), [limit o o.rcv]⟩

/-- `BasicTCPSocket.cpp:373-401` `Write`: the bytes that are sent. -/
def write (data : List Byte) (ready : Option Nat) (s : Sock) : Out (List Byte) :=
  match s.os with
  | none => ⟨s, [], false, []⟩
  | some o => match ready with
    | none => ⟨s, [], false, [limit o o.snd]⟩
    | some k => ⟨{ s with os := some { o with sent := o.sent ++ data.take k } }, data.take k, decide ((data.take k).length > 0), [limit o o.snd]⟩

/-- `BasicTCPSocket.cpp:414-416` and `463-465`: the limit is made from the milliseconds of the timeout. -/
def limitOf (t : Nat) : Nat := t / 1000 / 1000 * 1000000 + t / 1000 % 1000 * 1000

/-- `setsockopt` with `SO_RCVTIMEO`. -/
def setRcv (v : Nat) (ok : Bool) (s : Sock) : Sock := if ok then { s with os := s.os.map fun o => { o with rcv := v } } else s

/-- `setsockopt` with `SO_SNDTIMEO`. -/
def setSnd (v : Nat) (ok : Bool) (s : Sock) : Sock := if ok then { s with os := s.os.map fun o => { o with snd := v } } else s

/-- `BasicTCPSocket.cpp:403-451` `Read` with a timeout. -/
def readFor (size : Nat) (t : Timeout) (io : Io) (s : Sock) : Out (List Byte) :=
  match s.os with
  | none => ⟨s, [], false, []⟩
  | some _ => match t with
    | some t =>
      if io.setOk then
        let r := read size io.ready (setRcv (limitOf t) true s)
        ⟨setRcv 0 io.resetOk r.sock, if r.answer then r.value else [], r.answer, r.waits⟩
      else ⟨setRcv 0 io.resetOk s, [], false, []⟩
    | none =>
      let r := read size io.ready (setRcv 0 io.resetOk s)
      ⟨r.sock, if r.answer then r.value else [], r.answer, r.waits⟩

/-- `BasicTCPSocket.cpp:453-494` `Write` with a timeout. -/
def writeFor (data : List Byte) (t : Timeout) (io : Io) (s : Sock) : Out (List Byte) :=
  match s.os with
  | none => ⟨s, [], false, []⟩
  | some _ => match t with
    | some t =>
      if io.setOk then
        let r := write data io.ready (setSnd (limitOf t) true s)
        ⟨setSnd 0 io.resetOk r.sock, if r.answer then r.value else [], r.answer, r.waits⟩
      else ⟨setSnd 0 io.resetOk s, [], false, []⟩
    | none =>
      let r := write data io.ready s
      ⟨r.sock, if r.answer then r.value else [], r.answer, r.waits⟩

/-- `BasicSocket.cpp:65-85` `SetBlocking`. -/
def setBlocking (flag ok : Bool) (s : Sock) : Sock × Bool :=
  match s.os with
  | none => (s, false)
  | some o => if ok then (⟨some { o with blocking := flag }, flag⟩, true) else (s, false)

/-- `BasicTCPSocket.cpp:70-86` `Open`, when the operating system gives a new socket. -/
def openSocket (s : Sock) : Sock := { s with os := some ⟨true, 0, 0, [], []⟩ }

/-- `BasicSocket.cpp:87-101` `Close`. -/
def close (s : Sock) : Sock := { s with os := none }

/-- The answers to a connection: the address is found, the mode can be changed and changed back, and what `connect` answers: done, in progress (with the answer
of the wait and of the last question) or an error. -/
inductive Conn where
  | done
  | progress (ready noError : Bool)
  | error

/-- `BasicTCPSocket.cpp:120-220` `Connect`. -/
def connect (t : Timeout) (addressOk setOk : Bool) (conn : Conn) (resetOk : Bool) (s : Sock) : Out Unit :=
  match s.os with
  | none => ⟨s, (), false, []⟩
  | some _ =>
    if addressOk then
      let change := t.isSome && s.isBlocking
      let r1 := if change then setBlocking false setOk s else (s, true)
      let wait : List (Option Nat) := match r1.1.os with
        | none => []
        | some o => [if o.blocking then none else some 0]
      let r2 : Bool × List (Option Nat) :=
        if r1.2 then
          match conn with
          | .done => (true, wait)
          | .error => (false, wait)
          | .progress ready noError =>
            if t.isSome || !s.isBlocking then (ready && noError, wait ++ [if s.isBlocking then t else some 0])
            else (false, wait)
        else (false, [])
      if change then
        let r3 := setBlocking true resetOk r1.1
        ⟨r3.1, (), r2.1 && r3.2, r2.2⟩
      else ⟨r1.1, (), r2.1, r2.2⟩
    else ⟨s, (), false, []⟩

/-- One try to accept: a connection, or an error with the answer of the wait that follows when there is one (`wouldBlock`: the error allows it). -/
inductive Try where
  | accepted
  | failed (wouldBlock ready : Bool)

/-- `BasicTCPSocket.cpp:258-302`: one round of the loop; the second answer tells that there may be another round. -/
def acceptRound (t : Timeout) (wasBlocking blocking : Bool) : Try → Bool × Bool × List (Option Nat)
  | .accepted => (true, false, [if blocking then none else some 0])
  | .failed wouldBlock ready =>
    if wasBlocking && t.isSome && wouldBlock then (false, ready, [if blocking then none else some 0, t])
    else (false, false, [if blocking then none else some 0])

/-- `BasicTCPSocket.cpp:239-321` `WaitConnection`: whether a client is returned. -/
def waitConnection (t : Timeout) (setOk : Bool) (first second : Try) (resetOk : Bool) (s : Sock) : Out Unit :=
  match s.os with
  | none => ⟨s, (), false, []⟩
  | some _ =>
    let change := t.isSome && s.isBlocking
    let r1 := if change then setBlocking false setOk s else (s, true)
    let blocking := match r1.1.os with
      | none => false
      | some o => o.blocking
    let r2 : Bool × List (Option Nat) :=
      if r1.2 then
        let a := acceptRound t s.isBlocking blocking first
        if a.2.1 then
          let b := acceptRound t s.isBlocking blocking second
          (b.1, a.2.2 ++ b.2.2)
        else (a.1, a.2.2)
      else (false, [])
    if change then
      let r3 := setBlocking true resetOk r1.1
      ⟨r3.1, (), r2.1 && r3.2, r2.2⟩
    else ⟨r1.1, (), r2.1, r2.2⟩

/-- What a program does with a connected socket. -/
inductive Op where
  | peek (size : Nat) (ready : Option Nat)
  | read (size : Nat) (ready : Option Nat)
  | write (data : List Byte) (ready : Option Nat)
  | readFor (size : Nat) (t : Timeout) (io : Io)
  | writeFor (data : List Byte) (t : Timeout) (io : Io)

def step (s : Sock) : Op → Out (List Byte)
  | .peek size ready => peek size ready s
  | .read size ready => read size ready s
  | .write data ready => write data ready s
  | .readFor size t io => readFor size t io s
  | .writeFor data t io => writeFor data t io s

/-- The bytes that the program got, and those of which it was told that they were sent, in a history. -/
def run (s : Sock) : List Op → Sock × List Byte × List Byte
  | [] => (s, [], [])
  | op :: ops =>
    let r := step s op
    let rest := run r.sock ops
    match op with
    | .peek _ _ => rest
    | .read _ _ | .readFor _ _ _ => (rest.1, r.value ++ rest.2.1, rest.2.2)
    | .write _ _ | .writeFor _ _ _ => (rest.1, rest.2.1, r.value ++ rest.2.2)

end Verif.TcpSocket
