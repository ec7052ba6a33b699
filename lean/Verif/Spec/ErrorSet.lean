import Verif.Model.ErrorSet
/-!
# Sets of kinds of errors

A kind of error is the number of its bit.
-/
namespace Verif.ErrorSet.Spec
open Verif.ErrorSet

/-- The kinds of errors that a word of bits stands for. -/
def kinds (b : Value) (k : Nat) : Prop := b.getLsbD k = true

/-- The set of the kinds after a history (the last operation first) that begins with a set. -/
def after (first : Nat → Prop) : List Op → Nat → Prop
  | [], k => first k
  | .setFlag bit f :: before, k => (k = bit ∧ f = true) ∨ (k ≠ bit ∧ after first before k)
  | .assign b :: _, k => kinds b k
  | .assignBool e :: _, k => k = 0 ∧ e = true
  | .setError b :: before, k => kinds b k ∨ after first before k
  | .clearError b :: before, k => after first before k ∧ ¬ kinds b k

/-- The flags that are used are bits of the word. -/
def Flags (ops : List Op) : Prop := ∀ bit f, Op.setFlag bit f ∈ ops → bit < 32

end Verif.ErrorSet.Spec
