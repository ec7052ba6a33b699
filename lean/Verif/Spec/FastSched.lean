/-!
# What a map of threads has to do

A state is the list of the processor masks of its threads.
-/
namespace Verif.Spec.FastSched

/-- The largest number of threads with that mask in one state. -/
def most (cpu : Nat) (states : List (List Nat)) : Nat := (states.map (List.count cpu)).foldr max 0

/-- The masks, each one once. -/
def Masks (cpus : List Nat) (states : List (List Nat)) : Prop := cpus.Nodup ∧ ∀ c, c ∈ cpus ↔ ∃ st ∈ states, c ∈ st

/-- Each thread of a state has a thread of the pool for itself. -/
def Own (pool : Nat) (states : List (List Nat)) (slot : Nat → Nat → Nat) : Prop :=
  ∀ s st, states[s]? = some st → (∀ i, i < st.length → slot s i < pool) ∧
    ∀ i j, i < st.length → j < st.length → slot s i = slot s j → i = j

/-- The threads of the pool have the masks of the threads that they execute. -/
def Bound (states : List (List Nat)) (slot : Nat → Nat → Nat) (mask : Nat → Option Nat) : Prop :=
  ∀ s st i c, states[s]? = some st → st[i]? = some c → mask (slot s i) = some c

/-- Each mask has in one of the first two states the most threads. -/
def FirstTwo (states : List (List Nat)) : Prop := ∀ c st, st ∈ states → st.count c ≤ most c (states.take 2)

end Verif.Spec.FastSched
