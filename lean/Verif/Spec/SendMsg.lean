import Verif.Spec.WebTree
import Verif.Model.SendMsg
/-! # Specification of the sending of messages -/
namespace Verif.Spec.SendMsg
open Verif.RefC (Obj)
open Verif.Spec.RefC (Below)

/-- The object is in the registry, at any depth. -/
def Registered (db : List Obj) (id : Nat) : Prop := ∃ kids o, Below db kids ∧ o ∈ kids ∧ o.id = id

end Verif.Spec.SendMsg
