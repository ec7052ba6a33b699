import Verif.Model.BufferedStream
import Verif.Model.Format
/-!
# Model of the streams of the HTTP service

`FileSystem/L4HttpService/HttpChunkedStream.cpp`, on the buffers and devices of `Model/BufferedStream.lean`, and the loop of
`HttpProtocol::CompleteReadOperation`.  The socket is a device that writes at its end; it may take part of the bytes, or fail.
-/
namespace Verif.HttpChunk
open Verif.Model.IOBuffer Verif.Model.BufferedStream
open Verif.Format (printf)
open Verif.IntText (IType)

/-- Characters of the texts as bytes. -/
def bytesOf (s : List Char) : List Byte := s.map fun c => UInt8.ofNat c.toNat

/-- The write side of an `HttpChunkedStream`: buffer, socket, `chunkMode`, `calibWriteParam`. -/
structure Stream where
  buf : Buf
  dev : Dev
  chunk : Bool
  calib : Nat

variable (lit : List Char → Nat)

/-- `HttpChunkedStream.cpp:79`: `totStr.Printf("%x\r\n", size)`. -/
def sizeLine (size : Nat) : Option (Bool × List Char) :=
  printf lit ['%', 'x', '\r', '\n'] [.scalar (.int ⟨32, false⟩ size)]

/-- `HttpChunkedStream.cpp:70-101` `Flush`, with `DoubleBufferedStream::Flush` (the write buffer only). -/
def Stream.flush (s : Stream) : Option (Bool × Stream) :=
  let size := s.buf.usedSize
  let head : Option (Bool × Dev) :=
    if s.chunk = true ∧ size > 0 then
      match sizeLine lit size with
      | none => none
      | some (ok, text) =>
        if ok then
          let (ok, _, d) := osWrite s.dev (bytesOf text)
          some (ok, d)
        else some (false, s.dev)
    else some (true, s.dev)
  match head with
  | none => none
  | some (false, d) => some (false, { s with dev := d })
  | some (true, d) =>
    match flushBuf s.buf d with
    | none => none
    | some (false, b, d) => some (false, { s with buf := b, dev := d })
    | some (true, b, d) =>
      if s.chunk = true ∧ size > 0 then
        let (ok, _, d) := osWrite d [13, 10]
        some (ok, { s with buf := b, dev := d })
      else some (true, { s with buf := b, dev := d })

/-- `DoubleBufferedStream.cpp:202-218`, the loop of `Write`, with the flush of the chunked stream.  `fuel` bounds the iterations;
running out of it is the outcome `none`. -/
def Stream.writeLoop : Nat → Stream → List Byte → Option (Bool × Stream)
  | 0, _, _ => none
  | fuel + 1, s, bs =>
    if bs.length = 0 then some (true, s)
    else
      match s.buf.write bs with
      | none => none
      | some (n, b) =>
        if n ≠ bs.length then
          match ({ s with buf := b } : Stream).flush lit with
          | none => none
          | some (false, s) => some (false, s)
          | some (true, s) => Stream.writeLoop fuel s (bs.drop n)
        else Stream.writeLoop fuel { s with buf := b } (bs.drop n)

/-- `DoubleBufferedStream.cpp:189-265` `Write`. -/
def Stream.write (s : Stream) (bs : List Byte) : Option (Bool × Stream) :=
  if s.buf.maxU > s.calib * bs.length % 2 ^ 32 then s.writeLoop lit (2 * bs.length + 2) bs
  else
    match s.flush lit with
    | none => none
    | some (false, s) => some (false, s)
    | some (true, s) =>
      let (ok, _, d) := osWrite s.dev bs
      some (ok, { s with dev := d })

/-- `IOBuffer.h:580-617` `PutC`, by which `Printf` writes; its `Flush` is that of the stream
(`BufferedStreamIOBuffer.cpp:154-165`).  The undo level of a write buffer is zero. -/
def Stream.put (s : Stream) (c : Byte) : Option (Bool × Stream) :=
  if s.buf.amountLeft = 0 then
    match s.flush lit with
    | none => none
    | some (false, s) => some (false, s)
    | some (true, s) =>
      if s.buf.amountLeft = 0 then some (false, s)
      else match s.buf.putRaw c with
        | none => none
        | some b => some (true, { s with buf := b })
  else match s.buf.putRaw c with
    | none => none
    | some b => some (true, { s with buf := b })

/-- `HttpChunkedStream.cpp:103-109` `FinalChunk`. -/
def Stream.final (s : Stream) : Option (Bool × Stream) :=
  let (ok, _, d) := osWrite s.dev [48, 13, 10, 13, 10]
  some (ok, { s with dev := d })

/-- Calls on the stream. -/
inductive Op
  | write (bs : List Byte)
  | put (c : Byte)
  | flush
deriving DecidableEq, Repr

def Stream.step (s : Stream) : Op → Option (Bool × Stream)
  | .write bs => s.write lit bs
  | .put c => s.put lit c
  | .flush => s.flush lit

/-- A history of calls: the answers and the stream. -/
def Stream.run (s : Stream) : List Op → Option (List Bool × Stream)
  | [] => some ([], s)
  | op :: ops =>
    match s.step lit op with
    | none => none
    | some (o, s) =>
      match s.run ops with
      | none => none
      | some (os, s) => some (o :: os, s)

/-- `HttpChunkedStream.cpp:111-113` `SetChunkMode`. -/
def Stream.setChunkMode (s : Stream) (on : Bool) : Stream := { s with chunk := on }

/-- `HttpService.cpp:180-193`: a page of the given calls, then `Flush` and `FinalChunk`; all the answers. -/
def Stream.page (s : Stream) (ops : List Op) : Option (List Bool × Stream) :=
  match (s.setChunkMode true).run lit (ops ++ [.flush]) with
  | none => none
  | some (os, s) =>
    match s.final with
    | none => none
    | some (o, s) => some (os ++ [o], s)

/-- `HttpDataExportI.cpp:54-101`: the header is written by the calls `header` and flushed (`HttpProtocol.cpp:457`), then the page. -/
def Stream.reply (s : Stream) (header ops : List Op) : Option (List Bool × Stream) :=
  match (s.setChunkMode false).run lit (header ++ [.flush]) with
  | none => none
  | some (os, s) =>
    match s.page lit ops with
    | none => none
    | some (os2, s) => some (os ++ os2, s)

/-- `HttpChunkedStream.cpp:46-64` and `HttpService.cpp:234-237`: a new stream with a write buffer of the given size. -/
def Stream.new (size : Nat) (dev : Dev) : Option Stream := (newBuf size).map fun b => ⟨b, dev, false, 0⟩

/-! ## Reading the content of a message -/

/-- What a `Read` of the stream below does: success and at most `k` bytes. -/
structure Reading where
  ok : Bool
  k : Nat
deriving DecidableEq, Repr

/-- `HttpProtocol.cpp:97-138`, the loop of `CompleteReadOperation`: `unread` is `unreadInput`, `data` what the socket delivers;
the timeouts are answers of `Read`.  The result: `unreadInput`, what was written to the output stream, and what is left to be
read; `none` when the plan ends, that is, the loop waits for more data. -/
def readLoop (bufferSize : Nat) (isChunked : Bool) :
    List Reading → (unread : Int) → (sizeToRead : Nat) → (data out : List Byte) → Option (Int × List Byte × List Byte)
  | plan, unread, sizeToRead, data, out =>
    if sizeToRead = 0 then some (unread, out, data)
    else match plan with
      | [] => none
      | r :: plan =>
        let piece := data.take (min r.k sizeToRead)
        let data := data.drop (min r.k sizeToRead)
        if r.ok = true ∨ piece.length > 0 then
          let done := isChunked = true ∧ piece.length > 4 ∧ piece.drop (piece.length - 5) = [48, 13, 10, 13, 10]
          let readSize := if done then 0 else piece.length
          let unread' := if unread > 0 then unread - readSize else unread
          let size := if unread > 0 then min unread'.toNat bufferSize else bufferSize
          if readSize > 0 ∧ r.ok = true then readLoop bufferSize isChunked plan unread' size data (out ++ piece)
          else some (unread', out ++ piece, data)
        else some (unread, out, data)
  termination_by plan => plan.length

/-- `HttpProtocol.cpp:67-144` `CompleteReadOperation` with an output stream: the answer, the output and the rest. -/
def completeRead (bufferSize : Nat) (isChunked : Bool) (plan : List Reading) (unread : Int) (data : List Byte) :
    Option (Bool × List Byte × List Byte) :=
  let sizeToRead := if unread ≥ 0 then min unread.toNat bufferSize else bufferSize
  (readLoop bufferSize isChunked plan unread sizeToRead data []).map fun r => (decide (r.1 ≤ 0), r.2)

end Verif.HttpChunk
