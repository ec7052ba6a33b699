import Verif.Model.SortBrokers

/-!
# In which order the brokers of a function should be

The brokers are executed in order; those of the data source of the first signal come first, then those of the data source of the next
signal, and so on; brokers of the same data source keep their order, and those of other data sources come last.
-/
namespace Verif.Spec.SortBrokers

open Verif.SortBrokers (Name Broker Gam Objects Source)

/-- The position of the first signal of the data source of a broker; the number of signals if there is none. -/
def rank (signals : List (Option Name)) (b : Broker) : Nat := signals.idxOf (some b.source)

/-- `out` are the brokers `l` in the order of the signals. -/
structure InOrder (signals : List (Option Name)) (l out : List Broker) : Prop where
  perm : out.Perm l
  sorted : out.Pairwise fun a b => rank signals a ≤ rank signals b
  stable : ∀ k, (out.filter fun b => rank signals b = k) = l.filter fun b => rank signals b = k

/-- The function at a path. -/
def gamAt : Objects → List Name → Option Gam
  | .nil, _ => none
  | .cons _ _ _ _, [] => none
  | .cons n g k r, a :: p => if n = a then (if p = [] then g else gamAt k p) else gamAt r (a :: p)

/-- The brokers that the data sources make for the inputs of the function at a path, one data source after the other. -/
def madeIn (ss : List Source) (path : List Name) (g : Gam) : List Broker :=
  if g.inputs = [] then [] else ss.flatMap fun s => (s.inputs path).getD []

/-- The same for its outputs. -/
def madeOut (ss : List Source) (path : List Name) (g : Gam) : List Broker :=
  if g.outputs = [] then [] else ss.flatMap fun s => (s.outputs path).getD []

end Verif.Spec.SortBrokers
