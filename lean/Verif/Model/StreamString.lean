import Verif.Model.IOBuffer
/-
Model of StreamString (Source/Core/BareMetal/L3Streams/StreamString.cpp, StreamString.h,
StreamStringIOBuffer.cpp) on top of the buffer of Model/IOBuffer.lean.
-/
namespace Verif.Model.StreamString
open Verif.Model.IOBuffer

/-- Terminate, StreamStringIOBuffer.cpp 117-121. -/
def terminate (b : Buf) : Option Buf := b.store b.usedSize [0]

/-- SetBufferAllocationSize, StreamStringIOBuffer.cpp 59-75. -/
def setBufferAllocationSize (b : Buf) (desired : Nat) : Option (Bool × Buf) :=
  match b.setBufferHeapMemory (add32 desired 1) 1 with
  | none => none
  | some (ret, b) =>
    if ret then
      match terminate (if desired < b.usedSize then b.setUsedSize desired else b) with
      | none => none
      | some b => some (true, b)
    else some (false, b)

/-- StreamStringIOBuffer::Write, StreamStringIOBuffer.cpp 77-91: success, number of
bytes written, buffer. -/
def bufWrite (b : Buf) (bs : List Byte) : Option (Bool × Nat × Buf) :=
  match (if bs.length > b.amountLeft then setBufferAllocationSize b (add32 b.position bs.length)
         else some (true, b)) with
  | none => none
  | some (ret, b) =>
    if ret then
      match b.write bs with
      | none => none
      | some (n, b) => some (true, n, b)
    else some (false, bs.length, b)

/-- PutC, IOBuffer.h 580-617, with the Flush of a StreamString
(NoMoreSpaceToWrite, StreamStringIOBuffer.cpp 93-103) and undo level 0. -/
def putC (b : Buf) (c : Byte) : Option (Bool × Buf) :=
  if b.amountLeft = 0 then
    match setBufferAllocationSize b (add32 b.size 1) with
    | none => none
    | some (ok, b) =>
      if ok = true ∧ b.amountLeft ≠ 0 then
        match b.putRaw c with
        | none => none
        | some b => some (true, b)
      else some (false, b)
  else
    match b.putRaw c with
    | none => none
    | some b => some (true, b)

/-- The constructor, StreamString.cpp 45-54 with granularity 64
(StreamStringIOBuffer.cpp 45-48). -/
def create : Option Buf := (setBufferAllocationSize (empty0 64) 0).map (·.2)

/-- Calls on a StreamString. -/
inductive Op where
  /-- Write(input, size) with size = number of bytes of input. -/
  | write (bs : List Byte)
  /-- operator+=(char8) -/
  | append (c : Byte)
  /-- operator=(char8) -/
  | set (c : Byte)
  /-- operator+=(const char8 *): the array up to its terminator. -/
  | appendStr (s : List Byte)
  /-- operator=(const char8 *), and the constructor from a string. -/
  | setStr (s : List Byte)
  /-- operator+=(const StreamString &) of another object holding `s`. -/
  | appendOther (s : List Byte)
  /-- operator=(const StreamString &) of another object holding `s`, copy constructor. -/
  | setOther (s : List Byte)
  /-- `s += s`. -/
  | appendSelf
  /-- `s = s`. -/
  | assignSelf
  | read (n : Nat)
  | seek (pos : Nat)
  | relativeSeek (delta : Int)
  | setSize (n : Nat)
  | size
  | position
  /-- Buffer(), then reading the zero terminated array it returns. -/
  | buffer
  /-- operator[] -/
  | index (i : Nat)
  /-- the character Tail(i) points to -/
  | tail (i : Nat)
  | locate (c : Byte)
  | locateStr (pat : List Byte)

/-- What a call returns: success, data, a number. -/
structure Out where
  ok : Bool
  bytes : List Byte
  num : Int
  deriving DecidableEq, Repr

/-- The array of characters as StringHelper::Length sees it: up to the first zero. -/
def cstr (s : List Byte) : List Byte := s.takeWhile (· ≠ 0)

/-- Seek(UsedSize()), as Append does first (StreamString.cpp 208, 229, 251). -/
def seekEnd (b : Buf) : Buf := (b.seek b.usedSize).2

/-- The scan of Locate(char8), StreamString.cpp 276-282. -/
def locateFrom (c : Byte) : List Byte → Nat → Option Nat
  | [], _ => none
  | x :: xs, i => if x = c then some i else locateFrom c xs (i + 1)

/-- The inner loop of Locate(StreamString), StreamString.cpp 304-318: every character of
the pattern equals the character of the segment. -/
def segMatches : List Byte → List Byte → Bool
  | _, [] => true
  | [], _ :: _ => false
  | x :: xs, p :: ps => if x = p then segMatches xs ps else false

/-- The outer loop of Locate(StreamString), StreamString.cpp 302-321; `k` is the number
of starting positions left. -/
def locateStrFrom (pat : List Byte) : List Byte → Nat → Nat → Option Nat
  | _, _, 0 => none
  | s, i, k + 1 =>
    if segMatches s pat then some i else locateStrFrom pat (s.drop 1) (i + 1) k

/-- The int32 result of Locate: 0xffffffff cast to int32 is -1. -/
def idxOut (r : Option Nat) : Out :=
  ⟨true, [], match r with | some i => if i < 2 ^ 31 then (i : Int) else i - 2 ^ 32 | none => -1⟩

/-- Append and Write as one step: the result with the number of bytes written. -/
def wOut (r : Option (Bool × Nat × Buf)) (withNum : Bool) : Option (Out × Buf) :=
  r.map fun (ok, n, b) => (⟨ok, [], if withNum then n else 0⟩, b)

/-- One call (StreamString.cpp 128-325, StreamString.h 421-506). -/
def step (b : Buf) : Op → Option (Out × Buf)
  | .write bs => wOut (bufWrite b bs) true                        -- 133-137
  | .append c => (putC (seekEnd b) c).map fun (ok, b) => (⟨ok, [], 0⟩, b)   -- 206-216
  | .set c => (putC b.empty c).map fun (ok, b) => (⟨ok, [], 0⟩, b)          -- 218-223
  | .appendStr s => wOut (bufWrite (seekEnd b) (cstr s)) false    -- 225-237
  | .setStr s => wOut (bufWrite b.empty (cstr s)) false           -- 239-247
  | .appendOther s => wOut (bufWrite (seekEnd b) s) false         -- 249-259
  | .setOther s => wOut (bufWrite b.empty s) false                -- 261-265, 456-463
  | .appendSelf =>                                                -- 249-259 with &s == this
    -- the source pointer is taken before the block may be reallocated: a copy from the
    -- old block after a reallocation is a use after free
    let b := seekEnd b
    if b.usedSize > b.amountLeft then none
    else
      match b.load 0 b.usedSize with
      | none => none
      | some bs => wOut (bufWrite b bs) false
  | .assignSelf => some (⟨true, [], 0⟩, b)                        -- 456-463
  | .read n =>                                                    -- 128-131
    (b.read n).map fun (bs, b) => (⟨true, bs, bs.length⟩, b)
  | .seek pos =>                                                  -- 167-179
    if pos > b.usedSize then some (⟨false, [], 0⟩, (b.seek b.usedSize).2)
    else let r := b.seek pos; some (⟨r.1, [], 0⟩, r.2)
  | .relativeSeek delta =>                                        -- 181-192
    if delta > 2 ^ 31 - 1 ∨ delta < -2 ^ 31 then some (⟨false, [], 0⟩, b)
    else let r := b.relativeSeek delta; some (⟨r.1, [], 0⟩, r.2)
  | .setSize n =>                                                 -- 198-200, cast to uint32
    (setBufferAllocationSize b (n % 2 ^ 32)).map fun (ok, b) => (⟨ok, [], 0⟩, b)
  | .size => some (⟨true, [], b.usedSize⟩, b)                     -- 163-165
  | .position => some (⟨true, [], b.position⟩, b)                 -- 194-196
  | .buffer =>                                                    -- StreamString.h 421-424
    match terminate b with
    | none => none
    | some b => (b.load 0 (b.usedSize + 1)).map fun bs => (⟨true, bs, 0⟩, b)
  | .index i =>                                                   -- StreamString.h 500-506
    if i < b.usedSize then (b.load i 1).map fun bs => (⟨true, bs, 0⟩, b)
    else some (⟨true, [0], 0⟩, b)
  | .tail i =>                                                    -- StreamString.h 431-442
    if i ≤ sub32 b.usedSize 1 then
      (b.load (sub32 (sub32 b.usedSize i) 1) 1).map fun bs => (⟨true, bs, 0⟩, b)
    else some (⟨false, [], 0⟩, b)
  | .locate c =>                                                  -- 267-286
    (b.load 0 b.usedSize).map fun bs => (idxOut (locateFrom c bs 0), b)
  | .locateStr pat =>                                             -- 288-325
    if pat.length > 0 ∧ b.usedSize > 0 ∧ pat.length ≤ b.usedSize then
      (b.load 0 b.usedSize).map fun bs =>
        (idxOut (locateStrFrom pat bs 0 (sub32 (add32 1 b.usedSize) pat.length)), b)
    else some (idxOut none, b)

/-- A history of calls: the results, or `none` if a call leaves the allocated memory. -/
def run (b : Buf) : List Op → Option (List Out × Buf)
  | [] => some ([], b)
  | op :: ops =>
    match step b op with
    | none => none
    | some (o, b) =>
      match run b ops with
      | none => none
      | some (os, b) => some (o :: os, b)

/-- A new StreamString and a history of calls on it. -/
def runNew (ops : List Op) : Option (List Out) :=
  match create with
  | none => none
  | some b => (run b ops).map (·.1)

/-- operator==(const StreamString &), StreamString.h 477-482, on the contents of the two
objects: the sizes are equal and strncmp over that many characters, which stops at the
first zero, finds no difference.  (With different sizes the code calls strncmp as well;
its result is not used.) -/
def strncmpEq : List Byte → List Byte → Bool
  | x :: xs, y :: ys => if x = y then (if x = 0 then true else strncmpEq xs ys) else false
  | _, _ => true

def opEq (a b : List Byte) : Bool := decide (a.length = b.length) && strncmpEq a b

end Verif.Model.StreamString
