/-!
# RFC 4648 base64, stated on bit strings

Independent of the model: bytes are spelled out as bits (most significant first), the bit string is
padded with zeros to a multiple of six, cut in sextets, each sextet selects a letter, and `=` pads the
text to a multiple of four.
-/
namespace Verif.Spec.Base64

/-- `n` bits of `v`, most significant first. -/
def bitsOf : Nat → Nat → List Bool
  | 0, _ => []
  | n + 1, v => v.testBit n :: bitsOf n v

/-- Value of a bit string, most significant bit first. -/
def valueOf (l : List Bool) : Nat := l.foldl (fun acc b => 2 * acc + b.toNat) 0

/-- The RFC 4648 letter of a 6-bit value. -/
def letterOf (v : Nat) : Char :=
  if v < 26 then Char.ofNat (v + 65)          -- A..Z
  else if v < 52 then Char.ofNat (v - 26 + 97) -- a..z
  else if v < 62 then Char.ofNat (v - 52 + 48) -- 0..9
  else if v = 62 then '+' else '/'

/-- Cut a bit string in sextets, completing the last one with zeros. -/
def sextets : List Bool → List Nat
  | a :: b :: c :: d :: e :: f :: rest => valueOf [a, b, c, d, e, f] :: sextets rest
  | [] => []
  | l => [valueOf (l ++ List.replicate (6 - l.length) false)]

/-- Bits of a byte string. -/
def bits (xs : List UInt8) : List Bool := xs.flatMap (fun x => bitsOf 8 x.toNat)

/-- Number of `=` needed so that the text length is a multiple of four. -/
def padCount (n : Nat) : Nat := (3 - n % 3) % 3

/-- RFC 4648 section 4 encoding. -/
def encode (xs : List UInt8) : List Char :=
  (sextets (bits xs)).map letterOf ++ List.replicate (padCount xs.length) '='

end Verif.Spec.Base64
