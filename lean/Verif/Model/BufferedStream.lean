import Verif.Model.IOBuffer
/-
Model of the buffered streams (Source/Core/BareMetal/L3Streams/SingleBufferedStream.cpp and
.h, DoubleBufferedStream.cpp, BufferedStreamIOBuffer.cpp, BufferedStreamI.cpp 205-221).

The operating system side (OSRead, OSWrite, OSSeek, OSPosition, OSSize, OSSetSize) is a
sequence of bytes with an offset that may deliver and accept less than requested, or fail,
according to an arbitrary plan.  Timeouts are failures of OSRead and OSWrite.
-/
namespace Verif.Model.BufferedStream
open Verif.Model.IOBuffer

/-- The device below a buffered stream.  `rplan` and `wplan` say what the next calls of
OSRead and OSWrite do: `some k` transfers at most k bytes, `none` fails and transfers
nothing; when a plan is used up everything possible is transferred. -/
structure Dev where
  data : List Byte
  pos : Nat
  rplan : List (Option Nat)
  wplan : List (Option Nat)
  deriving DecidableEq, Repr

/-- OSRead (as BasicFile::Read, FileSystem/L1Portability/Environment/Linux/BasicFile.cpp
317-331: the size becomes the number of bytes read, zero at the end of the data). -/
def osRead (d : Dev) (n : Nat) : Bool × List Byte × Dev :=
  match d.rplan with
  | [] => let bs := (d.data.drop d.pos).take n
          (true, bs, { d with pos := d.pos + bs.length })
  | none :: p => (false, [], { d with rplan := p })
  | some k :: p => let bs := (d.data.drop d.pos).take (min k n)
                   (true, bs, { d with pos := d.pos + bs.length, rplan := p })

/-- Bytes stored at offset `pos` of a file; a gap before `pos` is filled with zeros. -/
def putAt (data : List Byte) (pos : Nat) (bs : List Byte) : List Byte :=
  if bs = [] then data
  else data.take pos ++ List.replicate (pos - data.length) 0 ++ bs ++ data.drop (pos + bs.length)

/-- OSWrite (as BasicFile::Write, BasicFile.cpp 378-392): success and the number of bytes
accepted. -/
def osWrite (d : Dev) (bs : List Byte) : Bool × Nat × Dev :=
  match d.wplan with
  | [] => (true, bs.length, { d with data := putAt d.data d.pos bs, pos := d.pos + bs.length })
  | none :: p => (false, 0, { d with wplan := p })
  | some k :: p => let acc := bs.take k
                   (true, acc.length, { d with data := putAt d.data d.pos acc,
                                               pos := d.pos + acc.length, wplan := p })

/-- NoMoreDataToRead, BufferedStreamIOBuffer.cpp 91-118 (BufferedStreamI::Refill,
BufferedStreamI.cpp 214-221). -/
def refill (b : Buf) (d : Dev) : Option (Bool × Buf × Dev) :=
  let b := b.empty
  let (ok, bs, d) := osRead d b.maxU
  if ok then
    match b.store 0 bs with
    | none => none
    | some b => some (decide (bs.length > 0), b.setUsedSize bs.length, d)
  else some (false, b.empty, d)

/-- NoMoreSpaceToWrite, BufferedStreamIOBuffer.cpp 120-148 (BufferedStreamI::Flush,
BufferedStreamI.cpp 205-212).  The number of bytes accepted by OSWrite is ignored. -/
def flushBuf (b : Buf) (d : Dev) : Option (Bool × Buf × Dev) :=
  if b.usedSize = 0 then some (true, b, d)
  else
    match b.load 0 b.usedSize with
    | none => none
    | some bs =>
      let (ok, _, d) := osWrite d bs
      if ok then some (true, b.empty, d) else some (false, b, d)

/-- The loop of Read, SingleBufferedStream.cpp 152-168 and DoubleBufferedStream.cpp
131-144.  `acc` is the data counted so far (readBytes).  `fuel` bounds the number of
iterations; running out of it is the outcome `none`. -/
def readLoop : Nat → Buf → Dev → Nat → List Byte → Option (Bool × List Byte × Buf × Dev)
  | 0, _, _, _, _ => none
  | fuel + 1, b, d, toRead, acc =>
    if toRead = 0 then some (true, acc, b, d)
    else
      match b.read toRead with
      | none => none
      | some (bs, b) =>
        if bs.length ≠ toRead then
          match refill b d with
          | none => none
          | some (ok, b, d) =>
            if ok then readLoop fuel b d (toRead - bs.length) (acc ++ bs)
            else some (false, acc, b, d)
        else readLoop fuel b d (toRead - bs.length) (acc ++ bs)

/-- Read from the buffer and the device, SingleBufferedStream.cpp 130-183 and
DoubleBufferedStream.cpp 110-175.  `calib` is calibReadParam.  The result is success, the
bytes reported as read (the first `size` bytes of the output), buffer and device. -/
def bufRead (calib : Nat) (b : Buf) (d : Dev) (n : Nat) :
    Option (Bool × List Byte × Buf × Dev) :=
  match b.read n with
  | none => none
  | some (bs0, b) =>
    if bs0.length ≠ n then
      let toRead := n - bs0.length
      if toRead * calib % 2 ^ 32 < b.maxU then
        match refill b d with
        | none => none
        | some (ok, b, d) =>
          if ok then readLoop (toRead + 1) b d toRead bs0 else some (false, bs0, b, d)
      else
        let (ok, bs, d) := osRead d toRead
        if ok then some (true, bs0 ++ bs, b, d) else some (false, bs0, b, d)
    else some (true, bs0, b, d)

/-- The loop of Write, SingleBufferedStream.cpp 218-234 and DoubleBufferedStream.cpp
202-218.  `writed` is the number of bytes counted so far. -/
def writeLoop : Nat → Buf → Dev → List Byte → Nat → Option (Bool × Nat × Buf × Dev)
  | 0, _, _, _, _ => none
  | fuel + 1, b, d, bs, writed =>
    if bs.length = 0 then some (true, writed, b, d)
    else
      match b.write bs with
      | none => none
      | some (n, b) =>
        if n ≠ bs.length then
          match flushBuf b d with
          | none => none
          | some (ok, b, d) =>
            if ok then writeLoop fuel b d (bs.drop n) (writed + n)
            else some (false, writed, b, d)
        else writeLoop fuel b d (bs.drop n) (writed + n)

/-- Write into the buffer or the device, SingleBufferedStream.cpp 209-248 and
DoubleBufferedStream.cpp 192-262.  `calib` is calibWriteParam.  The result is success and
the number of bytes reported as written. -/
def bufWrite (calib : Nat) (b : Buf) (d : Dev) (bs : List Byte) :
    Option (Bool × Nat × Buf × Dev) :=
  if b.maxU > calib * bs.length % 2 ^ 32 then writeLoop (2 * bs.length + 2) b d bs 0
  else
    match flushBuf b d with
    | none => none
    | some (ok, b, d) =>
      if ok then
        let (ok, k, d) := osWrite d bs
        some (ok, k, b, d)
      else some (false, bs.length, b, d)

/-- BufferedStreamIOBuffer::SetBufferSize, BufferedStreamIOBuffer.cpp 150-152, with the
minimum of 8 bytes of SingleBufferedStream.cpp 76-78 and DoubleBufferedStream.cpp 78-83.
The granularity of the buffer is 1 (CharBuffer.h). -/
def setBufferSize (b : Buf) (n : Nat) : Option (Bool × Buf) :=
  b.setBufferHeapMemory (if n < 8 then 8 else n) 0

/-! ### A stream with separate read and write buffers -/

/-- A DoubleBufferedStream: two buffers; the device seen as the sequence of bytes that can
be read and the sequence of bytes written. -/
structure Double where
  rbuf : Buf
  wbuf : Buf
  rdev : Dev
  wdev : Dev
  calR : Nat
  calW : Nat

/-- Calls on a DoubleBufferedStream. -/
inductive DOp where
  | read (n : Nat)
  | write (bs : List Byte)
  | flush
  deriving DecidableEq, Repr

/-- What a call returns: success, the bytes reported as read, the number of bytes reported
as written. -/
structure DOut where
  ok : Bool
  bytes : List Byte
  num : Nat
  deriving DecidableEq, Repr

/-- One call (DoubleBufferedStream.cpp 107-179, 189-265; BufferedStreamI.cpp 205-212). -/
def Double.step (s : Double) : DOp → Option (DOut × Double)
  | .read n =>
    match bufRead s.calR s.rbuf s.rdev n with
    | none => none
    | some (ok, bs, b, d) => some (⟨ok, bs, 0⟩, { s with rbuf := b, rdev := d })
  | .write bs =>
    match bufWrite s.calW s.wbuf s.wdev bs with
    | none => none
    | some (ok, k, b, d) => some (⟨ok, [], k⟩, { s with wbuf := b, wdev := d })
  | .flush =>
    match flushBuf s.wbuf s.wdev with
    | none => none
    | some (ok, b, d) => some (⟨ok, [], 0⟩, { s with wbuf := b, wdev := d })

/-- A history of calls. -/
def Double.run (s : Double) : List DOp → Option (List DOut × Double)
  | [] => some ([], s)
  | op :: ops =>
    match s.step op with
    | none => none
    | some (o, s) =>
      match s.run ops with
      | none => none
      | some (os, s) => some (o :: os, s)

/-- A new buffer of the given size (constructor, DoubleBufferedStream.cpp 46-57 with
SetBufferSize 76-95 called before any transfer). -/
def newBuf (n : Nat) : Option Buf := (setBufferSize (empty0 1) n).map (·.2)

/-- A new DoubleBufferedStream with the given buffer sizes over the given devices. -/
def Double.new (rsize wsize calR calW : Nat) (rdev wdev : Dev) : Option Double :=
  match newBuf rsize, newBuf wsize with
  | some r, some w => some ⟨r, w, rdev, wdev, calR, calW⟩
  | _, _ => none

/-! ### A stream with one buffer (files) -/

/-- A SingleBufferedStream; `wmode` is mutexWriteMode (mutexReadMode is its negation). -/
structure Single where
  buf : Buf
  dev : Dev
  wmode : Bool
  calR : Nat
  calW : Nat

/-- Resync, BufferedStreamIOBuffer.cpp 60-88 (OSSeek succeeds). -/
def resync (b : Buf) (d : Dev) : Buf × Dev :=
  if b.usedSize > 0 then (b.empty, { d with pos := d.pos - b.usedAmountLeft }) else (b, d)

/-- SwitchToWriteMode, SingleBufferedStream.h 247-254 (GetWriteBuffer,
SingleBufferedStream.cpp 105-116, when in read mode). -/
def Single.toWrite (s : Single) : Single :=
  if s.wmode then s
  else
    let r := resync s.buf s.dev
    { s with buf := r.1, dev := r.2, wmode := true }

/-- Flush, BufferedStreamI.cpp 205-212. -/
def Single.flush (s : Single) : Option (Bool × Single) :=
  let s := s.toWrite
  match flushBuf s.buf s.dev with
  | none => none
  | some (ok, b, d) => some (ok, { s with buf := b, dev := d })

/-- SwitchToReadMode, SingleBufferedStream.h 256-263, if in write mode. -/
def Single.toRead (s : Single) : Option (Bool × Single) :=
  if s.wmode then
    match s.flush with
    | none => none
    | some (ok, s) => if ok then some (true, { s with wmode := false }) else some (false, s)
  else some (true, s)

/-- FlushAndResync, SingleBufferedStream.h 233-245. -/
def Single.flushAndResync (s : Single) : Option (Bool × Single) :=
  if s.wmode then s.flush
  else
    let r := resync s.buf s.dev
    some (true, { s with buf := r.1, dev := r.2 })

/-- Calls on a SingleBufferedStream. -/
inductive SOp where
  | read (n : Nat)
  | write (bs : List Byte)
  | flush
  | seek (p : Nat)
  | relativeSeek (d : Int)
  | position
  | size
  | setSize (n : Nat)
  | setBufferSize (n : Nat)
  deriving DecidableEq, Repr

/-- uint64 arithmetic of RelativeSeek. -/
def wrap64 (x : Int) : Int := x % 2 ^ 64

/-- The last lines of RelativeSeek, SingleBufferedStream.cpp 375-385. -/
def relTail (s : Single) (ok ubSeek moveBack : Bool) (absDelta : Int) : DOut × Single :=
  if ok && ubSeek then
    if absDelta > s.dev.pos ∧ moveBack = true then (⟨false, [], 0⟩, s)
    else
      let target := if moveBack then wrap64 (s.dev.pos - absDelta) else wrap64 (s.dev.pos + absDelta)
      (⟨true, [], 0⟩, { s with dev := { s.dev with pos := target.toNat } })
  else (⟨ok, [], 0⟩, s)

/-- One call; the lines of SingleBufferedStream.cpp are given at each case.  The device can
be read, written and sought; OSSeek and OSSetSize succeed. -/
def Single.step (s : Single) : SOp → Option (DOut × Single)
  | .read n =>                                                     -- 118-186
    match s.toRead with
    | none => none
    | some (ok, s) =>
      if ok then
        match bufRead s.calR s.buf s.dev n with
        | none => none
        | some (ok, bs, b, d) => some (⟨ok, bs, 0⟩, { s with buf := b, dev := d })
      else some (⟨false, [], 0⟩, s)
  | .write bs =>                                                   -- 198-251
    let s := s.toWrite
    match bufWrite s.calW s.buf s.dev bs with
    | none => none
    | some (ok, k, b, d) => some (⟨ok, [], k⟩, { s with buf := b, dev := d })
  | .flush => s.flush.map fun (ok, s) => (⟨ok, [], 0⟩, s)
  | .seek p =>                                                     -- 277-316
    if s.wmode then
      match (if s.buf.usedSize > 0 then s.flush else some (true, s)) with
      | none => none
      | some (ok, s) =>
        if ok then some (⟨true, [], 0⟩, { s with dev := { s.dev with pos := p } })
        else some (⟨false, [], 0⟩, s)
    else if s.buf.usedSize > 0 then
      let start := s.dev.pos - s.buf.usedSize
      if p ≥ start ∧ p < s.dev.pos then
        some (⟨true, [], 0⟩, { s with buf := (s.buf.seek (p - start)).2 })
      else some (⟨true, [], 0⟩, { s with buf := s.buf.empty, dev := { s.dev with pos := p } })
    else some (⟨true, [], 0⟩, { s with dev := { s.dev with pos := p } })
  | .relativeSeek delta =>                                         -- 318-387
    let moveBack := decide (delta < 0)
    let absDelta := if moveBack then -delta else delta
    if delta ≠ 0 then
      if s.wmode then
        match (if s.buf.usedSize > 0 then s.flush else some (true, s)) with
        | none => none
        | some (ok, s) => some (relTail s ok ok moveBack absDelta)
      else if delta ≤ 2 ^ 31 - 1 ∧ delta ≥ -2 ^ 31 then
        let currentPos := s.buf.position
        let r := s.buf.relativeSeek delta
        if r.1 then some (relTail { s with buf := r.2 } true false moveBack absDelta)
        else
          let gap := sub32 r.2.usedSize currentPos
          let absDelta := if moveBack then wrap64 (absDelta - gap) else wrap64 (absDelta + gap)
          some (relTail { s with buf := r.2.empty } true true moveBack absDelta)
      else
        let r := resync s.buf s.dev
        some (relTail { s with buf := r.1, dev := r.2 } true true moveBack absDelta)
    else some (⟨true, [], 0⟩, s)
  | .position =>                                                   -- 389-401
    if s.wmode then some (⟨true, [], s.dev.pos + s.buf.position⟩, s)
    else some (⟨true, [], s.dev.pos - s.buf.usedAmountLeft⟩, s)
  | .size =>                                                       -- 263-275
    match s.flushAndResync with
    | none => none
    | some (ok, s) => some (⟨true, [], if ok then s.dev.data.length else 0⟩, s)
  | .setSize n =>                                                  -- 403-414
    match s.flushAndResync with
    | none => none
    | some (ok, s) =>
      if ok then
        some (⟨true, [], 0⟩, { s with dev := { s.dev with
          data := s.dev.data.take n ++ List.replicate (n - s.dev.data.length) 0 } })
      else some (⟨false, [], 0⟩, s)
  | .setBufferSize n =>                                            -- 74-86
    match s.flushAndResync with
    | none => none
    | some (ok, s) =>
      if ok then
        match Verif.Model.BufferedStream.setBufferSize s.buf n with
        | none => none
        | some (ok, b) => some (⟨ok, [], 0⟩, { s with buf := b })
      else some (⟨false, [], 0⟩, s)

/-- A history of calls. -/
def Single.run (s : Single) : List SOp → Option (List DOut × Single)
  | [] => some ([], s)
  | op :: ops =>
    match s.step op with
    | none => none
    | some (o, s) =>
      match s.run ops with
      | none => none
      | some (os, s) => some (o :: os, s)

/-- A new SingleBufferedStream over a device (constructor, SingleBufferedStream.cpp 46-56:
32 bytes, read mode, calibration parameters 4 of BufferedStreamI.cpp 46-52). -/
def Single.new (d : Dev) : Option Single :=
  (newBuf 32).map fun b => ⟨b, d, false, 4, 4⟩

end Verif.Model.BufferedStream
