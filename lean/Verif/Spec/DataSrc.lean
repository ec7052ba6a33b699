import Verif.Model.DataSrc
/-! # Specification of the answers of a data source (C95); only the records are taken from the model -/
namespace Verif.Spec.DataSrc
open Verif.DataSrc (Text FSig Fn)

/-- The signals of the functions, in order, the outputs of each function before its inputs. -/
def connections (fns : List Fn) : List FSig := fns.flatMap fun f => (f.outs.getD []) ++ (f.ins.getD [])

/-- As the application writes it: every node of a direction has signals, every signal has its two names. -/
def Complete (fns : List Fn) : Prop :=
  (∀ f ∈ fns, f.outs ≠ some [] ∧ f.ins ≠ some []) ∧ ∀ s ∈ connections fns, s.name.isSome ∧ s.alias_.isSome

/-- The classes of the brokers, each once, in the order in which they appear. -/
def firstSeen : List Text → List Text
  | [] => []
  | b :: bs => b :: (firstSeen bs).filter (fun c => c != b)

end Verif.Spec.DataSrc
