import Verif.Model.Select
/-!
# Which descriptors are watched
-/
namespace Verif.Select.Spec
open Verif.Select

/-- The descriptor `d` of the handle `h` is the one, or one of the two, that is used in the mode `m`. -/
def uses (m : Mode) (h : Handle) (d : Nat) : Prop :=
  match m with
  | .read => h.read = d
  | .write => h.write = d
  | .exception => h.read = d ∨ h.write = d

/-- After a history, the last operation first, the descriptor `d` is one that a program asked to watch in the mode `m`: since it was added it was not removed
nor cleared. -/
def added (m : Mode) (d : Nat) : List Op → Prop
  | [] => False
  | .add m' h :: earlier => (m' = m ∧ uses m h d) ∨ added m d earlier
  | .remove m' h :: earlier => ¬ (m' = m ∧ uses m h d) ∧ added m d earlier
  | .clear :: _ => False
  | .isSet _ :: earlier => added m d earlier
  | .wait _ _ _ :: earlier => added m d earlier

/-- The same, and it was ready in each wait since then that ended without error. -/
def watched (m : Mode) (d : Nat) : List Op → Prop
  | [] => False
  | .add m' h :: earlier => (m' = m ∧ uses m h d) ∨ watched m d earlier
  | .remove m' h :: earlier => ¬ (m' = m ∧ uses m h d) ∧ watched m d earlier
  | .clear :: _ => False
  | .isSet _ :: earlier => watched m d earlier
  | .wait _ answer ready :: earlier => watched m d earlier ∧ (answer < 0 ∨ ready m d = true)

/-- The descriptors of a handle that a program may use. -/
def inRange (d : Int) : Prop := 0 ≤ d ∧ d < 1024

def valid (h : Handle) : Prop := inRange h.read ∧ inRange h.write

/-- An operation uses only such descriptors; those that are added or removed can also be negative. -/
def usable : Op → Prop
  | .add m h | .remove m h => (m ≠ .write → h.read < 1024) ∧ (m ≠ .read → h.write < 1024)
  | .isSet h => valid h
  | _ => True

end Verif.Select.Spec
