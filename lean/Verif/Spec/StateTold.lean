import Verif.Model.StateTold
/-!
# Who must be told of a change of state
-/
namespace Verif.StateTold.Spec
open Verif.StateTold

/-- The objects that take part in the state `next`: those of the first state with this name, then those of the data. -/
inductive Takes (data : List Nat) (next : Text) : List StateDecl → List Nat → Prop where
  | here (s : StateDecl) (rest : List StateDecl) : s.name = next → Takes data next (s :: rest) (s.statefuls ++ data)
  | later (s : StateDecl) (rest : List StateDecl) (l : List Nat) : s.name ≠ next → Takes data next rest l → Takes data next (s :: rest) l

/-- A history where every start comes after a preparation, and each change is told correctly: `running` is the state that was started last, `asked` the one
that was prepared since, if any, and `told` what the objects are told, of the current and of the next state. -/
inductive Correct : Text → Option Text → List Op → List (Text × Text) → Prop where
  | nil (running : Text) (asked : Option Text) : Correct running asked [] []
  | prepare (running next : Text) (asked : Option Text) (accept : Nat → Bool) (ops : List Op) (names : List (Text × Text)) :
      Correct running (some next) ops names → Correct running asked (.prepare next accept :: ops) ((running, next) :: names)
  | start (running next : Text) (ops : List Op) (names : List (Text × Text)) :
      Correct next none ops names → Correct running (some next) (.start :: ops) names

end Verif.StateTold.Spec
