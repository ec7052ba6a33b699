import Verif.Model.GamLookup
/-!
# C141: what the answers on the signals of a GAM mean
-/
namespace Verif.GamLookup.Spec

/-- The signal `k` is the first with that name, and the names before it can be read. -/
def First (sigs : List Sig) (name : String) (k : Nat) : Prop :=
  (∃ s, sigs[k]? = some s ∧ s.name = some name) ∧ ∀ j < k, ∃ s n, sigs[j]? = some s ∧ s.name = some n ∧ n ≠ name

/-- The first data source with that name has the frequency `v` for the signal `i`. -/
def Freq {F : Type} (l : List (Mem F)) (src : String) (i : Nat) (v : F) : Prop :=
  ∃ before m after, l = before ++ m :: after ∧ m.source = some src ∧ m.frequency i = some v ∧
    ∀ x ∈ before, ∃ d, x.source = some d ∧ d ≠ src

end Verif.GamLookup.Spec
