/-!
# MD5 (RFC 1321) and HMAC (RFC 2104)

Written from the two documents; words have 32 bits.  Nothing of the model is used.
-/
namespace Verif.Md5.Spec

abbrev Byte := BitVec 8
abbrev Word := BitVec 32

/-- RFC 1321, 3.1 and 3.2: a one bit, zeros until the length is 56 modulo 64, and the length in bits, in 64 bits, low bytes first. -/
def padded (m : List Byte) : List Byte :=
  m ++ [0x80] ++ List.replicate ((119 - m.length % 64) % 64) 0 ++
    (List.range 8).map fun i => BitVec.ofNat 8 (8 * m.length / 256 ^ i)

/-- Four bytes as a word, low bytes first. -/
def word (b : List Byte) : Word :=
  BitVec.ofNat 32 ((b.getD 0 0).toNat + 256 * (b.getD 1 0).toNat + 256 ^ 2 * (b.getD 2 0).toNat + 256 ^ 3 * (b.getD 3 0).toNat)

/-- A word as four bytes, low bytes first. -/
def bytes (w : Word) : List Byte := (List.range 4).map fun i => BitVec.ofNat 8 (w.toNat / 256 ^ i)

/-- RFC 1321, 3.4: the auxiliary functions. -/
def F (x y z : Word) : Word := (x &&& y) ||| (~~~x &&& z)
def G (x y z : Word) : Word := (x &&& z) ||| (y &&& ~~~z)
def H (x y z : Word) : Word := x ^^^ y ^^^ z
def I (x y z : Word) : Word := y ^^^ (x ||| ~~~z)

/-- RFC 1321, 3.4: the table `T`, the integer part of 2^32 times |sin i| for i from 1 to 64. -/
def table : List Word :=
  [0xD76AA478, 0xE8C7B756, 0x242070DB, 0xC1BDCEEE, 0xF57C0FAF, 0x4787C62A, 0xA8304613, 0xFD469501,
   0x698098D8, 0x8B44F7AF, 0xFFFF5BB1, 0x895CD7BE, 0x6B901122, 0xFD987193, 0xA679438E, 0x49B40821,
   0xF61E2562, 0xC040B340, 0x265E5A51, 0xE9B6C7AA, 0xD62F105D, 0x02441453, 0xD8A1E681, 0xE7D3FBC8,
   0x21E1CDE6, 0xC33707D6, 0xF4D50D87, 0x455A14ED, 0xA9E3E905, 0xFCEFA3F8, 0x676F02D9, 0x8D2A4C8A,
   0xFFFA3942, 0x8771F681, 0x6D9D6122, 0xFDE5380C, 0xA4BEEA44, 0x4BDECFA9, 0xF6BB4B60, 0xBEBFBC70,
   0x289B7EC6, 0xEAA127FA, 0xD4EF3085, 0x04881D05, 0xD9D4D039, 0xE6DB99E5, 0x1FA27CF8, 0xC4AC5665,
   0xF4292244, 0x432AFF97, 0xAB9423A7, 0xFC93A039, 0x655B59C3, 0x8F0CCC92, 0xFFEFF47D, 0x85845DD1,
   0x6FA87E4F, 0xFE2CE6E0, 0xA3014314, 0x4E0811A1, 0xF7537E82, 0xBD3AF235, 0x2AD7D2BB, 0xEB86D391]

/-- The rotations of each round. -/
def turns : List (List Nat) := [[7, 12, 17, 22], [5, 9, 14, 20], [4, 11, 16, 23], [6, 10, 15, 21]]

def turn (i : Nat) : Nat := (turns.getD (i / 16) []).getD (i % 4) 0

/-- The word of the block used in the step `i`. -/
def index (i : Nat) : Nat :=
  if i < 16 then i else if i < 32 then (5 * i + 1) % 16 else if i < 48 then (3 * i + 5) % 16 else 7 * i % 16

def mix (i : Nat) : Word → Word → Word → Word :=
  if i < 16 then F else if i < 32 then G else if i < 48 then H else I

/-- The four words of the digest. -/
structure Digest where
  a : Word
  b : Word
  c : Word
  d : Word

/-- One step, with the words turned so that the one that changes comes first. -/
def step (x : List Word) (q : Digest) (i : Nat) : Digest :=
  ⟨q.d, q.b + (q.a + mix i q.b q.c q.d + x.getD (index i) 0 + table.getD i 0).rotateLeft (turn i), q.b, q.c⟩

/-- RFC 1321, 3.4: a block of 64 bytes. -/
def block (q : Digest) (b : List Byte) : Digest :=
  let x := (List.range 16).map fun i => word (b.drop (4 * i))
  let r := (List.range 64).foldl (step x) q
  ⟨q.a + r.a, q.b + r.b, q.c + r.c, q.d + r.d⟩

/-- All the blocks. -/
def digest (q : Digest) : (n : Nat) → List Byte → Digest
  | 0, _ => q
  | n + 1, m => digest (block q (m.take 64)) n (m.drop 64)

def initial : Digest := ⟨0x67452301, 0xEFCDAB89, 0x98BADCFE, 0x10325476⟩

/-- RFC 1321: the digest of a message. -/
def md5 (m : List Byte) : List Byte :=
  let p := padded m
  let r := digest initial (p.length / 64) p
  bytes r.a ++ bytes r.b ++ bytes r.c ++ bytes r.d

/-- RFC 2104, 2: a key longer than a block is replaced by its digest; then zeros up to a block. -/
def blockKey (key : List Byte) : List Byte :=
  let k := if key.length > 64 then md5 key else key
  k ++ List.replicate (64 - k.length) 0

/-- RFC 2104, 2. -/
def hmac (key text : List Byte) : List Byte :=
  md5 ((blockKey key).map (· ^^^ 0x5C) ++ md5 ((blockKey key).map (· ^^^ 0x36) ++ text))

end Verif.Md5.Spec
