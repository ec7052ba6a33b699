/-!
# The chunked transfer coding (RFC 7230, 4.1)

```
chunked-body = *chunk last-chunk trailer-part CRLF
chunk        = chunk-size CRLF chunk-data CRLF
chunk-size   = 1*HEXDIG
last-chunk   = 1*("0") CRLF
```
without extensions and trailers.  A receiver, from the bytes on the wire to the content and the bytes after the message.
-/
namespace Verif.Spec.HttpChunk

abbrev Byte := UInt8

/-- `HEXDIG`: digits, and letters in both cases. -/
def hexDigit (c : Byte) : Option Nat :=
  if 48 ≤ c.toNat ∧ c.toNat ≤ 57 then some (c.toNat - 48)
  else if 65 ≤ c.toNat ∧ c.toNat ≤ 70 then some (c.toNat - 55)
  else if 97 ≤ c.toNat ∧ c.toNat ≤ 102 then some (c.toNat - 87)
  else none

/-- The size at the beginning of a chunk, with its end of line: `seen` is the value of the digits before, if any. -/
def chunkSize (seen : Option Nat) : List Byte → Option (Nat × List Byte)
  | [] => none
  | c :: cs =>
    match hexDigit c with
    | some d => chunkSize (some (16 * seen.getD 0 + d)) cs
    | none => if c = 13 ∧ cs.head? = some 10 then seen.map fun n => (n, cs.tail) else none

/-- The content of at most `fuel` chunks, and what follows the message. -/
def decode : (fuel : Nat) → List Byte → Option (List Byte × List Byte)
  | 0, _ => none
  | fuel + 1, wire =>
    match chunkSize none wire with
    | none => none
    | some (n, rest) =>
      if n = 0 then (if rest.take 2 = [13, 10] then some ([], rest.drop 2) else none)
      else if (rest.take n).length = n ∧ (rest.drop n).take 2 = [13, 10] then
        (decode fuel (rest.drop (n + 2))).map fun r => (rest.take n ++ r.1, r.2)
      else none

end Verif.Spec.HttpChunk
