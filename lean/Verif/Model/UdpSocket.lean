/-!
# Model of the datagrams of a UDP socket

`FileSystem/L1Portability/Environment/Linux/BasicUDPSocket.cpp`, `BasicSocket.cpp` and `InternetHost.cpp`.  The operating system keeps the datagrams that arrived,
each with its sender, and those that were sent, each with its receiver; it sends a datagram whole or not at all.  Times are in microseconds.  Not modelled:
`Listen`, `Join`, datagrams of 2 GB.
-/
namespace Verif.UdpSocket

abbrev Byte := Nat

/-- `InternetHost.h`: `address`, its number and its port. -/
structure Host where
  number : Nat
  port : Nat
deriving DecidableEq, Repr

/-- A datagram with its sender, or with its receiver. -/
abbrev Datagram := Host × List Byte

/-- The socket of the operating system: its mode, its limits of time (0 is no limit), what arrived and what was sent. -/
structure Os where
  blocking : Bool
  rcv : Nat
  snd : Nat
  incoming : List Datagram
  sent : List Datagram
deriving DecidableEq, Repr

/-- `BasicSocket.h`: `connectionSocket`, when it is valid, `source` and `destination`. -/
structure Sock where
  os : Option Os
  source : Host
  destination : Host
deriving DecidableEq, Repr

/-- The answers of the operating system: it accepts the limit of time, it does the transfer, it accepts to remove the limit. -/
structure Io where
  setOk : Bool
  ok : Bool
  resetOk : Bool

/-- A timeout; `none` is one that is not finite. -/
abbrev Timeout := Option Nat

/-- What an operation gives. -/
structure Out where
  sock : Sock
  value : List Byte
  answer : Bool
  waits : List (Option Nat)
deriving DecidableEq, Repr

/-- The longest time of a `recvfrom` or `sendto` with the limit `r`. -/
def limit (o : Os) (r : Nat) : Option Nat := if o.blocking then (if r = 0 then none else some r) else some 0

/-- `BasicUDPSocket.cpp:63-87` `Peek`. -/
def peek (size : Nat) (ok : Bool) (s : Sock) : Out :=
  match s.os with
  | none => ⟨s, [], false, []⟩
  | some o => match ok, o.incoming with
    | true, (h, d) :: _ => ⟨{ s with source := h }, d.take size, decide (0 < (d.take size).length), [limit o o.rcv]⟩
    | _, _ => ⟨s, [], false, [limit o o.rcv]⟩

/-- `BasicUDPSocket.cpp:89-120` `Read`: the operating system drops what does not fit. -/
def read (size : Nat) (ok : Bool) (s : Sock) : Out :=
  match s.os with
  | none => ⟨s, [], false, []⟩
  | some o => match ok, o.incoming with
    | true, (h, d) :: rest =>
      ⟨{ s with os := some { o with incoming := rest }, source := h }, d.take size, decide (0 < (d.take size).length), [limit o o.rcv]⟩
    | _, _ => ⟨s, [], false, [limit o o.rcv]⟩

/-- `BasicUDPSocket.cpp:122-145` `Write`. -/
def write (data : List Byte) (ok : Bool) (s : Sock) : Out :=
  match s.os with
  | none => ⟨s, [], false, []⟩
  | some o =>
    if ok then ⟨{ s with os := some { o with sent := o.sent ++ [(s.destination, data)] } }, data, decide (0 < data.length), [limit o o.snd]⟩
    else ⟨s, [], false, [limit o o.snd]⟩

/-- `BasicUDPSocket.cpp:226-229` and `267-270`: the seconds and the microseconds of the limit. -/
def limitOf (t : Nat) : Nat := t / 1000000 * 1000000 + t % 1000000

/-- `setsockopt` with `SO_RCVTIMEO`. -/
def setRcv (v : Nat) (ok : Bool) (s : Sock) : Sock := if ok then { s with os := s.os.map fun o => { o with rcv := v } } else s

/-- `setsockopt` with `SO_SNDTIMEO`. -/
def setSnd (v : Nat) (ok : Bool) (s : Sock) : Sock := if ok then { s with os := s.os.map fun o => { o with snd := v } } else s

/-- `BasicUDPSocket.cpp:217-256` `Read` with a timeout. -/
def readFor (size : Nat) (t : Timeout) (io : Io) (s : Sock) : Out :=
  match s.os with
  | none => ⟨s, [], false, []⟩
  | some _ => match t with
    | some t =>
      if io.setOk then
        let r := read size io.ok (setRcv (limitOf t) true s)
        ⟨setRcv 0 io.resetOk r.sock, if r.answer then r.value else [], r.answer, r.waits⟩
      else ⟨setRcv 0 io.resetOk s, [], false, []⟩
    | none => read size io.ok s

/-- `BasicUDPSocket.cpp:258-297` `Write` with a timeout. -/
def writeFor (data : List Byte) (t : Timeout) (io : Io) (s : Sock) : Out :=
  match s.os with
  | none => ⟨s, [], false, []⟩
  | some _ => match t with
    | some t =>
      if io.setOk then
        let r := write data io.ok (setSnd (limitOf t) true s)
        ⟨setSnd 0 io.resetOk r.sock, r.value, r.answer, r.waits⟩
      else ⟨setSnd 0 io.resetOk s, [], false, []⟩
    | none => write data io.ok s

/-- `BasicUDPSocket.cpp:185-203` `Connect` with `InternetHost.cpp:279-325`: the number that is written in the address, or the one that is found for the name. -/
def connect (numeric byName : Option Nat) (port : Nat) (s : Sock) : Sock × Bool :=
  match s.os with
  | none => (s, false)
  | some _ => match numeric with
    | some a => ({ s with destination := ⟨a, port⟩ }, true)
    | none => match byName with
      | some a => ({ s with destination := ⟨a, port⟩ }, true)
      | none => ({ s with destination := ⟨0, port⟩ }, false)

/-- What a program does. -/
inductive Op where
  | peek (size : Nat) (ok : Bool)
  | read (size : Nat) (ok : Bool)
  | write (data : List Byte) (ok : Bool)
  | readFor (size : Nat) (t : Timeout) (io : Io)
  | writeFor (data : List Byte) (t : Timeout) (io : Io)
  | connect (numeric byName : Option Nat) (port : Nat)
  /-- `BasicSocket.cpp:111-113` `SetDestination`. -/
  | setDestination (h : Host)

def step (s : Sock) : Op → Out
  | .peek size ok => peek size ok s
  | .read size ok => read size ok s
  | .write data ok => write data ok s
  | .readFor size t io => readFor size t io s
  | .writeFor data t io => writeFor data t io s
  | .connect numeric byName port => ⟨(connect numeric byName port s).1, [], (connect numeric byName port s).2, []⟩
  | .setDestination h => ⟨{ s with destination := h }, [], true, []⟩

/-- What the program gets in a history: of each read that succeeds, the size asked for, the sender that the socket tells and the bytes. -/
def run (s : Sock) : List Op → Sock × List (Nat × Datagram)
  | [] => (s, [])
  | op :: ops =>
    let r := step s op
    let rest := run r.sock ops
    match op with
    | .read size _ | .readFor size _ _ => (rest.1, if r.answer then (size, r.sock.source, r.value) :: rest.2 else rest.2)
    | _ => rest

end Verif.UdpSocket
