/-!
# Model of `ReferenceContainer::Purge`

Here the objects may be in several containers and containers may contain each other: the memory is the list of the
contents of the containers, by identity; an identity that is not in the list is an object that is not a container, whose
`Purge` does nothing (`Object.cpp` `Purge`).  The locks succeed.
-/
namespace Verif.RefPurge

/-- The contents of the containers and the references in `purgeList`. -/
structure S where
  heap : List (List Nat)
  list : List Nat

/-- The references in a container. -/
def kids (s : S) (x : Nat) : List Nat := (s.heap[x]?).getD []

/-- `ReferenceContainer.cpp:455-465`: the first loop: each reference is moved to the list; `Delete` removes the first
occurrence of the object. -/
def drain : Nat → Nat → S → S
  | 0, _, s => s
  | n + 1, x, s =>
    match kids s x with
    | [] => drain n x s
    | o :: _ => drain n x ⟨s.heap.set x ((kids s x).erase o), s.list ++ [o]⟩

/-- `ReferenceContainer.cpp:468-473`: the second loop, over the places of the list from `i` on. -/
def each (f : Nat → S → Option S) : (i n : Nat) → S → Option S
  | _, 0, s => some s
  | i, n + 1, s =>
    (match s.list[i]? with
      | some o => f o s
      | none => some s).bind (each f (i + 1) n)

/-- `ReferenceContainer.cpp:447-474` `Purge(purgeList)`; `none`: out of fuel. -/
def purge : Nat → Nat → S → Option S
  | 0, _, _ => none
  | fuel + 1, x, s => each (purge fuel) s.list.length (kids s x).length (drain (kids s x).length x s)

end Verif.RefPurge
