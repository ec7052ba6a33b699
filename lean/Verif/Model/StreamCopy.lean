/-!
# Model of copying a stream to another

`BareMetal/L3Streams/BufferedStreamI.cpp`: `Copy(BufferedStreamI &)`.  The source is the list of its bytes and a plan of what each `Read` answers and
delivers at most; the destination is the list of the bytes written and a plan of what each `Write` answers and takes at most.  A byte of the local buffer
that was never set is `none`.
-/
namespace Verif.StreamCopy

/-- A byte. -/
abbrev Byte := Nat

/-- What a `Read` or a `Write` answers and how many bytes it moves at most. -/
structure Act where
  ok : Bool
  k : Nat
deriving DecidableEq, Repr

/-- `BufferedStreamI.cpp:172-173`: the size of the local buffer. -/
def bufferSize : Nat := 256

/-- What a `Read` of 256 bytes leaves: its answer, the size, the local buffer and the source.  `SingleBufferedStream.cpp:121-130`,
`DoubleBufferedStream.cpp:109-113`: a stream that cannot be read leaves the size and the memory as they are. -/
def read (readable : Bool) (r : Act) (buf : List (Option Byte)) (data : List Byte) : Bool × Nat × List (Option Byte) × List Byte :=
  if readable then
    let piece := data.take (min r.k bufferSize)
    (r.ok, piece.length, piece.map some ++ buf.drop piece.length, data.drop (min r.k bufferSize))
  else (false, bufferSize, buf, data)

/-- What a `Write` does; without a plan it takes all. -/
def write (ws : List Act) (bytes : List (Option Byte)) : Bool × List (Option Byte) × List Act :=
  match ws with
  | [] => (true, bytes, [])
  | w :: ws => (w.ok, bytes.take w.k, ws)

/-- `BufferedStreamI.cpp:177-201`: the loop and what follows it.  Answers the result, what was written and what is left in the source; `none`: the plan
of the source ends. -/
def loop (readable : Bool) : List Act → List Act → (ret : Bool) → (size : Nat) → List (Option Byte) → (data : List Byte) → (out : List (Option Byte)) →
    Option (Bool × List (Option Byte) × List Byte)
  | rs, ws, ret, size, buf, data, out =>
    if ret = true ∧ size > 0 then
      let w := write ws (buf.take size)
      if w.1 then
        match rs with
        | [] => none
        | r :: rs =>
          let x := read readable r buf data
          loop readable rs w.2.2 x.1 x.2.1 x.2.2.1 x.2.2.2 (out ++ w.2.1)
      else some (false, out ++ w.2.1, data)
    else if size > 0 then
      let w := write ws (buf.take size)
      some (ret && w.1, out ++ w.2.1, data)
    else some (ret, out, data)
  termination_by rs => rs.length

/-- `BufferedStreamI.cpp:170-203` `Copy`. -/
def copy (readable : Bool) (rs ws : List Act) (data : List Byte) : Option (Bool × List (Option Byte) × List Byte) :=
  match rs with
  | [] => none
  | r :: rs =>
    let x := read readable r (List.replicate bufferSize none) data
    loop readable rs ws x.1 x.2.1 x.2.2.1 x.2.2.2 []

end Verif.StreamCopy
