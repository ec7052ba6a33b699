import Verif.Model.BufferedStream
/-
What a user expects of buffered streams: C20, C21 (transfers) and C47 (a buffered file is
a file with a cursor).  Only the types of calls, results and devices of the model are used.
-/
namespace Verif.Spec.BufferedStream
open Verif.Model.BufferedStream (DOp DOut SOp Dev)

/-- The bytes reported as read by a history of calls, in order. -/
def bytesRead (os : List DOut) : List UInt8 := (os.map (·.bytes)).flatten

/-- The bytes handed to Write by a history of calls, in order. -/
def bytesWritten : List DOp → List UInt8
  | [] => []
  | .write bs :: ops => bs ++ bytesWritten ops
  | _ :: ops => bytesWritten ops

/-- Every Write and Flush of the history succeeded. -/
def WritesSucceed : List DOp → List DOut → Prop
  | .write _ :: ops, o :: os => o.ok = true ∧ WritesSucceed ops os
  | .flush :: ops, o :: os => o.ok = true ∧ WritesSucceed ops os
  | .read _ :: ops, _ :: os => WritesSucceed ops os
  | _, _ => True

/-- Every Read of the history succeeded. -/
def ReadsSucceed : List DOp → List DOut → Prop
  | .read _ :: ops, o :: os => o.ok = true ∧ ReadsSucceed ops os
  | _ :: ops, _ :: os => ReadsSucceed ops os
  | _, _ => True

/-- A device that accepts all or nothing of what is written to it (a block is always
below 4 GiB). -/
def AllOrNothing (d : Dev) : Prop := ∀ k, some k ∈ d.wplan → 2 ^ 32 ≤ k

/-- The sizes of a call fit the uint32 arguments. -/
def FitsOp : DOp → Prop
  | .read n => n < 2 ^ 32
  | .write bs => bs.length < 2 ^ 32
  | .flush => True

/-- A file with a cursor. -/
structure FileS where
  data : List UInt8
  cur : Nat

/-- Overwriting a file at the cursor, which moves behind the data; a gap between the end
of the file and the cursor is filled with zeros. -/
def fileWrite (f : FileS) (bs : List UInt8) : FileS :=
  if bs = [] then f
  else ⟨f.data.take f.cur ++ List.replicate (f.cur - f.data.length) 0 ++ bs
          ++ f.data.drop (f.cur + bs.length), f.cur + bs.length⟩

/-- The ideal result of each call on a file. -/
def fileStep (f : FileS) : SOp → DOut × FileS
  | .read n =>
    let bs := (f.data.drop f.cur).take n
    (⟨true, bs, 0⟩, ⟨f.data, f.cur + bs.length⟩)
  | .write bs => (⟨true, [], bs.length⟩, fileWrite f bs)
  | .flush => (⟨true, [], 0⟩, f)
  | .seek p => (⟨true, [], 0⟩, ⟨f.data, p⟩)
  | .relativeSeek d =>
    if 0 ≤ f.cur + d then (⟨true, [], 0⟩, ⟨f.data, (f.cur + d).toNat⟩) else (⟨false, [], 0⟩, f)
  | .position => (⟨true, [], f.cur⟩, f)
  | .size => (⟨true, [], f.data.length⟩, f)
  | .setSize n =>
    (⟨true, [], 0⟩, ⟨f.data.take n ++ List.replicate (n - f.data.length) 0, f.cur⟩)
  | .setBufferSize _ => (⟨true, [], 0⟩, f)

def fileRun (f : FileS) : List SOp → List DOut × FileS
  | [] => ([], f)
  | op :: ops =>
    let r := fileStep f op
    let rest := fileRun r.2 ops
    (r.1 :: rest.1, rest.2)

/-- What has to be remembered of the calls so far to say which calls are covered:
the last transfer was a write (or a flush); no large read since the last repositioning;
the size of the buffer. -/
structure Ctx where
  wmode : Bool
  fresh : Bool
  bufSize : Nat

/-- The calls covered: reads of data that exist; relative seeks after a write; seeks
backwards into the last buffer length only if no large read came before. -/
def FileAllowed (c : Ctx) (f : FileS) : SOp → Prop
  | .read n => f.cur + n ≤ f.data.length ∧ n < 2 ^ 32
  | .write bs => bs.length < 2 ^ 32
  | .seek p => c.wmode = true ∨ c.fresh = true ∨ f.cur ≤ p ∨ p + c.bufSize < f.cur
  | .relativeSeek d => c.wmode = true ∧ -2 ^ 63 < d ∧ d < 2 ^ 63 ∧ f.cur + d < 2 ^ 64
  | .setBufferSize n => n < 2 ^ 32
  | _ => True

def ctxStep (c : Ctx) : SOp → Ctx
  | .read n => { c with wmode := false,
                        fresh := (c.fresh || c.wmode) && decide (4 * n < c.bufSize) }
  | .write _ => { c with wmode := true }
  | .flush => { c with wmode := true }
  | .seek _ => { c with fresh := true }
  | .relativeSeek _ => c
  | .position => c
  | .size => { c with fresh := true }
  | .setSize _ => { c with fresh := true }
  | .setBufferSize n => { c with fresh := true, bufSize := if n < 8 then 8 else n }

def AllFileAllowed (c : Ctx) (f : FileS) : List SOp → Prop
  | [] => True
  | op :: ops => FileAllowed c f op ∧ AllFileAllowed (ctxStep c op) (fileStep f op).2 ops

end Verif.Spec.BufferedStream
