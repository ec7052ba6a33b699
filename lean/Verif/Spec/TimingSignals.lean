import Verif.Model.TimingSignals
/-!
# Which signals a timing data source should have
-/
namespace Verif.Spec.TimingSignals
open Verif.TimingSignals (Text Sig)

/-- The names of the signals with the times of the functions, and of the cycles of the threads of the states. -/
def functionNames (functions : List Text) : List Text :=
  functions.flatMap fun f => ["_ReadTime", "_ExecTime", "_WriteTime"].map fun p => f ++ p.toList

def threadNames (threads : List (Text × Text)) : List Text := threads.map fun t => t.1 ++ ['.'] ++ t.2 ++ "_CycleTime".toList

/-- The parts of a name, put together with points. -/
def joined : List Text → Text
  | [] => []
  | [t] => t
  | t :: ts => t ++ ['.'] ++ joined ts

def IsPart (t : Text) : Prop := t ≠ [] ∧ '.' ∉ t ∧ '\x00' ∉ t

/-- A number of 32 bits. -/
structure IsTime (s : Sig) : Prop where
  type : s.type = some "uint32".toList
  dims : s.dims = some 0
  elems : s.elems = some 1
  bytes : s.bytes = some 4
  /-- one node for each part of the name but the last -/
  full : ∀ parts, parts ≠ [] → (∀ t ∈ parts, IsPart t) → s.name = joined parts →
    s.fullType = some ((List.replicate (parts.length - 1) "Node.".toList).flatten ++ "uint32".toList)

/-- A signal that was declared in another way than a number of 32 bits. -/
def Contradicts (s : Sig) : Prop :=
  (∃ t, s.type = some t ∧ t ≠ "uint32".toList) ∨ (∃ n, s.dims = some n ∧ n ≠ 0) ∨ (∃ n, s.elems = some n ∧ n ≠ 1) ∨
    (∃ n, s.bytes = some n ∧ n ≠ 4)

end Verif.Spec.TimingSignals
