/-!
# Model of a serial port

`FileSystem/L1Portability/Environment/Linux/BasicUART.cpp`.  The code of a speed is the speed.  Not modelled: the other settings of the terminal.  Times are in
microseconds.
-/
namespace Verif.Uart

abbrev Byte := Nat

/-- `BasicUART.cpp:50-67` `speedTable`. -/
def speeds : List Nat :=
  [0, 50, 75, 110, 134, 150, 200, 300, 600, 1200, 1800, 2400, 4800, 9600, 19200, 38400, 57600, 115200, 230400, 460800, 500000, 576000, 921600, 1000000,
    1152000, 1500000, 2000000, 2500000, 3000000, 3500000, 4000000]

/-- `BasicUARTProperties.h`: the descriptor, the speed and the two sets. -/
structure Port where
  fd : Option Nat
  speed : Nat
  readSet : List Nat
  writeSet : List Nat
deriving DecidableEq, Repr

/-- `BasicUART.cpp:76-85` -/
def new : Port := ⟨none, 19200, [], []⟩

/-- `BasicUART.cpp:96-101`: the first speed that is not lower, or the last one. -/
def pick : List Nat → Nat → Nat
  | [], _ => 0
  | [x], _ => x
  | x :: y :: rest, v => if x < v then pick (y :: rest) v else x

/-- `BasicUART.cpp:92-106` `SetSpeed`. -/
def setSpeed (v : Nat) (p : Port) : Port × Bool :=
  match p.fd with
  | some _ => (p, false)
  | none => ({ p with speed := pick speeds v }, decide (v = pick speeds v))

/-- The members of a set of descriptors. -/
def setSize : Nat := 1024

/-- `BasicUART.cpp:109-227` `Open` with a name: the answer of `open`, and whether the settings are accepted.  `none` when a set is written outside of it
(`131-132`). -/
def openPort (fd : Option Nat) (settings : Bool) (p : Port) : Option (Port × Bool) :=
  match p.fd with
  | some _ => some (p, false)
  | none => match fd with
    | none => none
    | some n => if n < setSize then some ({ p with fd := some n, readSet := n :: p.readSet, writeSet := n :: p.writeSet }, settings) else none

/-- `BasicUART.cpp:229-242` `Close`. -/
def close (p : Port) : Port := { p with fd := none }

/-- The operating system call `select`: the descriptors below `n` in the set are all open, and one of them is ready. -/
def select (opened ready : Nat → Bool) (n : Nat) (set : List Nat) : Bool :=
  ((set.filter fun d => d < n).all opened) && ((set.filter fun d => d < n).any ready)

/-- `BasicUART.cpp:329-342` `WaitRead`: its answer. -/
def waitRead (opened ready : Nat → Bool) (p : Port) : Bool :=
  select opened ready (match p.fd with | none => 0 | some n => n + 1) p.readSet

/-- `BasicUART.cpp:344-357` `WaitWrite`: its answer. -/
def waitWrite (opened ready : Nat → Bool) (p : Port) : Bool :=
  select opened ready (match p.fd with | none => 0 | some n => n + 1) p.writeSet

/-- One passage of the loop: the answer of the wait and the time it takes, and what `read` answers (`none` is an error): no more bytes than there are. -/
structure Round where
  ready : Bool
  time : Nat
  bytes : Option Nat

/-- What a read gives: the bytes, those that remain, the answer and the times of the waits. -/
structure Out where
  value : List Byte
  pending : List Byte
  answer : Bool
  waits : List Nat
deriving DecidableEq, Repr

/-- `BasicUART.cpp:267-306` `Read` with a timeout, with `left` bytes to read; when there are no more rounds the wait ends without anything. -/
def readFor (timeout : Nat) : List Round → Nat → List Byte → Out
  | _, 0, pending => ⟨[], pending, true, []⟩
  | [], _ + 1, pending => ⟨[], pending, false, [timeout]⟩
  | r :: rs, left + 1, pending =>
    if r.ready then
      match r.bytes with
      | none => ⟨[], pending, false, [min r.time timeout]⟩
      | some k =>
        let n := min k (min (left + 1) pending.length)
        if 0 < n then
          let rest := readFor timeout rs (left + 1 - n) (pending.drop n)
          ⟨pending.take n ++ rest.value, rest.pending, rest.answer, min r.time timeout :: rest.waits⟩
        else ⟨[], pending, false, [min r.time timeout]⟩
    else ⟨[], pending, false, [timeout]⟩

/-- `BasicUART.cpp:248-263` `Read`: the bytes, those that remain, the size that is told and the answer; `k` is what `read` answers. -/
def read (size : Nat) (k : Option Nat) (pending : List Byte) : List Byte × List Byte × Nat × Bool :=
  match k with
  | none => ([], pending, 2 ^ 32 - 1, false)
  | some k =>
    let n := min k (min size pending.length)
    (pending.take n, pending.drop n, n, true)

/-- `BasicUART.cpp:314-327` `Write`: the bytes that are sent and the answer. -/
def write (data : List Byte) (k : Option Nat) : List Byte × Bool :=
  match k with
  | none => ([], false)
  | some k => (data.take k, decide ((data.take k).length = data.length))

/-- What the owner does with a port. -/
inductive Op where
  | setSpeed (v : Nat)
  | open (fd : Option Nat) (settings : Bool)
  | close

/-- A history of the port. -/
def run (p : Port) : List Op → Option Port
  | [] => some p
  | .setSpeed v :: ops => run (Uart.setSpeed v p).1 ops
  | .open fd settings :: ops => (openPort fd settings p).bind fun r => run r.1 ops
  | .close :: ops => run (Uart.close p) ops

end Verif.Uart
