import Verif.Model.StreamString
/-
The ideal behaviour of a StreamString: a sequence of bytes and a cursor.
Uses only the type of calls and results of the model.
-/
namespace Verif.Spec.StreamString
open Verif.Model.StreamString (Op Out)

/-- A sequence of bytes with a cursor. -/
structure Text where
  bytes : List UInt8
  pos : Nat

/-- Overwriting (and extending) the text at the cursor, which moves behind the data. -/
def overwrite (t : Text) (bs : List UInt8) : Text :=
  ⟨t.bytes.take t.pos ++ bs ++ t.bytes.drop (t.pos + bs.length), t.pos + bs.length⟩

/-- The text with `bs` added at the end, the cursor behind it. -/
def added (t : Text) (bs : List UInt8) : Text := ⟨t.bytes ++ bs, t.bytes.length + bs.length⟩

/-- The text replaced by `bs`, the cursor behind it. -/
def replaced (bs : List UInt8) : Text := ⟨bs, bs.length⟩

/-- The characters of a C array up to its terminator. -/
def upToZero (s : List UInt8) : List UInt8 := s.takeWhile (· ≠ 0)

/-- Position of the first occurrence of a pattern. -/
def firstMatch (pat s : List UInt8) : Option Nat :=
  (List.range s.length).find? fun i => pat.isPrefixOf (s.drop i)

/-- An index, or -1. -/
def orMinusOne (r : Option Nat) : Int := match r with | some i => i | none => -1

/-- The ideal result of each call. -/
def step (t : Text) : Op → Out × Text
  | .write bs => (⟨true, [], bs.length⟩, overwrite t bs)
  | .append c => (⟨true, [], 0⟩, added t [c])
  | .set c => (⟨true, [], 0⟩, replaced [c])
  | .appendStr s => (⟨true, [], 0⟩, added t (upToZero s))
  | .setStr s => (⟨true, [], 0⟩, replaced (upToZero s))
  | .appendOther s => (⟨true, [], 0⟩, added t s)
  | .setOther s => (⟨true, [], 0⟩, replaced s)
  | .appendSelf => (⟨true, [], 0⟩, added t t.bytes)
  | .assignSelf => (⟨true, [], 0⟩, t)
  | .read n =>
    let bs := (t.bytes.drop t.pos).take n
    (⟨true, bs, bs.length⟩, ⟨t.bytes, t.pos + bs.length⟩)
  | .seek p =>
    if p ≤ t.bytes.length then (⟨true, [], 0⟩, ⟨t.bytes, p⟩)
    else (⟨false, [], 0⟩, ⟨t.bytes, t.bytes.length⟩)
  | .relativeSeek d =>
    if -2 ^ 31 ≤ d ∧ d < 2 ^ 31 then
      (⟨decide (0 ≤ t.pos + d ∧ t.pos + d ≤ t.bytes.length), [], 0⟩,
        ⟨t.bytes, (min (t.pos + d) t.bytes.length).toNat⟩)
    else (⟨false, [], 0⟩, t)
  | .setSize n => (⟨true, [], 0⟩, ⟨t.bytes.take n, min t.pos n⟩)
  | .size => (⟨true, [], t.bytes.length⟩, t)
  | .position => (⟨true, [], t.pos⟩, t)
  | .buffer => (⟨true, t.bytes ++ [0], 0⟩, t)
  | .index i => (⟨true, [(t.bytes[i]?).getD 0], 0⟩, t)
  | .tail i =>
    if i < t.bytes.length then (⟨true, (t.bytes.reverse[i]?).toList, 0⟩, t)
    else (⟨false, [], 0⟩, t)
  | .locate c => (⟨true, [], orMinusOne (t.bytes.findIdx? (· == c))⟩, t)
  | .locateStr pat =>
    (⟨true, [], orMinusOne (if pat = [] then none else firstMatch pat t.bytes)⟩, t)

/-- The ideal results of a history. -/
def run (t : Text) : List Op → List Out × Text
  | [] => ([], t)
  | op :: ops =>
    let r := step t op
    let rest := run r.2 ops
    (r.1 :: rest.1, rest.2)

/-- The calls for which the code is claimed to agree with the ideal: no relative seek
backwards, no `s += s`, no Tail of an empty text, sizes and data below 2^31. -/
def Allowed (t : Text) : Op → Prop
  | .relativeSeek d => 0 ≤ d
  | .appendSelf => False
  | .tail i => t.bytes ≠ [] ∧ i < 2 ^ 32
  | .setSize n => n < 2 ^ 31
  | op => (step t op).2.bytes.length < 2 ^ 31

/-- Every call of the history is allowed at its point. -/
def AllAllowed (t : Text) : List Op → Prop
  | [] => True
  | op :: ops => Allowed t op ∧ AllAllowed (step t op).2 ops

end Verif.Spec.StreamString
