import Verif.Model.HttpClients
/-!
# The life of a stream
-/
namespace Verif.HttpClients.Spec

/-- What was done with one stream, in order. -/
def lifeOf (c : Nat) (trace : List (Nat × Act)) : List Act := (trace.filter fun x => x.1 = c).map fun x => x.2

/-- A life that has ended well: never created; created and freed without a connection; or used any number of times, then closed once and freed once. -/
def Over (l : List Act) : Prop :=
  l = [] ∨ l = [.new, .free] ∨ ∃ n, l = [.new, .accept] ++ List.replicate n .use ++ [.close, .free]

/-- A life that goes on: created, with or without a connection, and never closed or freed. -/
def Open (l : List Act) : Prop := l = [.new] ∨ ∃ n, l = [.new, .accept] ++ List.replicate n .use

end Verif.HttpClients.Spec
