import Verif.Props.CRC
/-!
# Which hashes should be accepted
-/
namespace Verif.Spec.LoaderHash

/-- The bytes of a number, the least significant first. -/
def littleEndian (x : BitVec 32) : List (BitVec 8) := (List.range 4).map fun i => BitVec.ofNat 8 (x.toNat / 256 ^ i)

/-- The hash of a text: the remainder of the division by the key of the seed followed by the text. -/
def hashOf (key seed : BitVec 32) (text : List (BitVec 8)) : BitVec 32 := Spec.CRC.crc key 0 (littleEndian seed ++ text)

/-- A list of bytes changed in four bytes, or fewer, that follow each other. -/
def ChangedInFour (t t' : List (BitVec 8)) : Prop :=
  ∃ pre a a' post, t = pre ++ a ++ post ∧ t' = pre ++ a' ++ post ∧ a.length = a'.length ∧ a.length ≤ 4 ∧ a ≠ a'

end Verif.Spec.LoaderHash
