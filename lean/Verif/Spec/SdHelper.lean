import Verif.Model.SdHelper
/-!
# Specification: reading with an error flag

`Call` is the data of a call.
-/
namespace Verif.Spec.SdHelper
open Verif.SdHelper (Call Text)

variable {S : Type}

/-- What a call does when nothing has failed: whether it succeeds, and the state. -/
inductive Does : Call S → S → Bool → S → Prop where
  | pass (f s) : Does (.pass f) s (f s).1 (f s).2
  | read (get d s) : (get s).1 = true → Does (.read get d) s true (get s).2
  | missing (get s) : (get s).1 = false → Does (.read get none) s false (get s).2
  | byDefault (get d s) : (get s).1 = false → Does (.read get (some d)) s (d (get s).2).1 (d (get s).2).2
  | enum (get options values d set s o v s') : options.length = values.length → (get s = some o ∨ get s = none ∧ d = some o) →
      (options.zip values).lookup o = some v → set v s = some s' → Does (.enum get options values d set) s true s'
  | enumNot (get options values d set s) : (∀ o v s', options.length = values.length → (get s = some o ∨ get s = none ∧ d = some o) →
      (options.zip values).lookup o = some v → set v s ≠ some s') → Does (.enum get options values d set) s false s
  | validated (get eval s) : (get s).1 = true → eval (get s).2 = some 1 → Does (.validated get eval) s true (get s).2
  | validatedNot (get eval s) : ((get s).1 = true → eval (get s).2 ≠ some 1) → Does (.validated get eval) s false (get s).2

/-- A program of calls: they are made until one fails; from then on nothing is done and every answer is no. -/
inductive Runs : List (Call S) → S → List Bool → S → Bool → Prop where
  | nil (s) : Runs [] s [] s false
  | ok (c cs s s1 bs s2 e) : Does c s true s1 → Runs cs s1 bs s2 e → Runs (c :: cs) s (true :: bs) s2 e
  | fail (c cs s s1) : Does c s false s1 → Runs (c :: cs) s (false :: cs.map fun _ => false) s1 true

end Verif.Spec.SdHelper
