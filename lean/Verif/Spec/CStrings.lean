/-!
# Specification of the functions on texts (C76)

A text is a list of bytes that are not zero; it is in memory when it is followed by a zero.
-/
namespace Verif.Spec.CStrings

/-- The memory begins with the text and its end. -/
def Holds (mem s : List Nat) : Prop := (∀ c, c ∈ s → 0 < c ∧ c < 256) ∧ ∃ rest, mem = s ++ 0 :: rest

/-- The memory `after` begins with the text and its end; it was `before`, and the rest of it is the same. -/
def Written (before after s : List Nat) : Prop := after = s ++ 0 :: before.drop (s.length + 1) ∧ s.length < before.length

/-- Only characters of the ASCII set. -/
def Ascii (s : List Nat) : Prop := ∀ c, c ∈ s → c < 128

/-- The order of a dictionary. -/
def Before : List Nat → List Nat → Prop
  | _, [] => False
  | [], _ :: _ => True
  | a :: s, b :: t => a < b ∨ a = b ∧ Before s t

/-- Small letters. -/
def lower (s : List Nat) : List Nat := s.map fun c => if 'A'.toNat ≤ c ∧ c ≤ 'Z'.toNat then c + ('a'.toNat - 'A'.toNat) else c

/-- The text `t` is in `s` at `i`. -/
def OccursAt (t s : List Nat) (i : Nat) : Prop := i + t.length ≤ s.length ∧ (s.drop i).take t.length = t

/-- The first place where `t` is in `s`. -/
def FirstAt (t s : List Nat) (i : Nat) : Prop := OccursAt t s i ∧ ∀ j, j < i → ¬ OccursAt t s j

end Verif.Spec.CStrings
