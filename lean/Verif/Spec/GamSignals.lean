import Verif.Model.GamSignals
/-!
# Specification: memory and brokers of a function

`Broker` is the record of the model (an identity and the name of a data source).
-/
namespace Verif.Spec.GamSignals
open Verif.GamSignals (Broker)

/-- The memory of some signals, each given by its size in bytes and its number of samples. -/
def need (sz : List (Nat × Nat)) : Nat := (sz.map (fun p => p.1 * p.2)).sum

/-- Where a data source comes first among the signals. -/
def rank (order : List (List Char)) (b : Broker) : Nat := order.findIdx (fun d => d == b.ds)

/-- `l'` is `l`, sorted by the signals their data source has first; brokers of the same rank stay in their order. -/
structure SortedBy (order : List (List Char)) (l l' : List Broker) : Prop where
  same : l'.Perm l
  sorted : l'.Pairwise (fun a b => rank order a ≤ rank order b)
  stable : ∀ k, l'.filter (fun b => rank order b == k) = l.filter (fun b => rank order b == k)

end Verif.Spec.GamSignals
