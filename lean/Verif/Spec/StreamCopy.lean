/-!
# Bytes that go from one stream to another
-/
namespace Verif.StreamCopy.Spec

/-- What came out is the first bytes of `data`, all of them set, and `rest` is what is left. -/
def Moved (data : List Nat) (out : List (Option Nat)) (rest : List Nat) : Prop :=
  ∃ taken, data = taken ++ rest ∧ out = taken.map some

end Verif.StreamCopy.Spec
