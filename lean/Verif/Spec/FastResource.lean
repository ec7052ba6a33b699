import Verif.Model.FastResource

namespace Verif.Spec.FastResource
open Verif.FastResource

/-- The resources nobody owns after an observed event: one that `Take` returns is owned until it is given to `Return`. -/
def nextFree (free : List Nat) : Obs → List Nat
  | .took _ p => free.filter (· ≠ p)
  | .gave _ p => p :: free
  | .failed _ => free

def freeAfter (free : List Nat) (tr : List Obs) : List Nat := tr.foldl nextFree free

/-- Every resource that is handed out was free. -/
def Exclusive : List Nat → List Obs → Prop
  | _, [] => True
  | free, o :: rest => (match o with | .took _ p => p ∈ free | _ => True) ∧ Exclusive (nextFree free o) rest

instance : (free : List Nat) → (tr : List Obs) → Decidable (Exclusive free tr)
  | _, [] => inferInstanceAs (Decidable True)
  | free, o :: rest =>
    @instDecidableAnd _ _ (by cases o <;> infer_instance) (instDecidableExclusive (nextFree free o) rest)

/-- Only the owner of a resource returns it. -/
def Rule (free : List Nat) (s : State) : Ev → Prop
  | .give _ p => p < s.n ∧ p ∉ freeAfter free s.trace
  | _ => True

instance (free : List Nat) (s : State) (e : Ev) : Decidable (Rule free s e) := by
  cases e <;> unfold Rule <;> infer_instance

def Legal (free : List Nat) : State → List Ev → Prop
  | _, [] => True
  | s, e :: es => Rule free s e ∧ Legal free (step s e) es

instance (free : List Nat) : (s : State) → (es : List Ev) → Decidable (Legal free s es)
  | _, [] => inferInstanceAs (Decidable True)
  | s, e :: es => @instDecidableAnd _ _ inferInstance (instDecidableLegal free (step s e) es)

end Verif.Spec.FastResource
