/-! ## Specification: the hash functions djb2 and FNV-1a, on natural numbers -/
namespace Verif.Spec.HashFn

/-- djb2: the bytes are the digits, in base 33, of a number that begins with 5381. -/
def djb (bytes : List (BitVec 8)) : Nat :=
  5381 * 33 ^ bytes.length + ((bytes.reverse.zipIdx).map fun x => x.1.toNat * 33 ^ x.2).sum

/-- FNV-1a with `w` bits: for each byte, exclusive or, then the multiplication modulo `2 ^ w`. -/
def fnv (w offset prime : Nat) (bytes : List (BitVec 8)) : Nat :=
  bytes.foldl (fun h b => (h ^^^ b.toNat) * prime % 2 ^ w) offset

/-- Two lists of bytes of the same length that differ in one place. -/
def OneByte (x y : List (BitVec 8)) : Prop := ∃ before a b after, x = before ++ a :: after ∧ y = before ++ b :: after ∧ a ≠ b

end Verif.Spec.HashFn
