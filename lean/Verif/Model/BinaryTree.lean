import Verif.Model.UnorderedMap
/-!
# Model of `BareMetal/L1Portability/BinaryTree.h`

The two `StaticList`s are lists (that they behave as lists is C01) with a maximum length (`GetMaxCapacity`, at which
`Insert` fails).  Identifiers enter as their 32-bit hash.  `uint32` arithmetic of the search is explicit.  `none` is
undefined behaviour (reading an empty list) or non termination.
-/
namespace Verif.BTree
variable {V : Type}

/-- `BinaryTree.h:115-125` members: `myKeyList`, `myList`. -/
structure Tree (V : Type) where
  keys : List Nat
  vals : List V

/-- `uint32` subtraction. -/
def sub32 (a b : Nat) : Nat := (a + 2 ^ 32 - b) % 2 ^ 32
/-- `uint32` addition. -/
def add32 (a b : Nat) : Nat := (a + b) % 2 ^ 32

/-- `StaticList.h:239-243` `operator[]`: past the end it reads the last element. -/
def at' {α : Type} (l : List α) (pos : Nat) : Option α := if pos > l.length - 1 then l[l.length - 1]? else l[pos]?

/-- `BinaryTree.h:221-249`: the search loop. -/
def searchLoop (keys : List Nat) (key : Nat) : Nat → Nat → Nat → Nat → Option (Bool × Nat)
  | 0, _, _, _ => none
  | f + 1, index, range, range1 =>
    if range1 > 0 then
      (at' keys index).bind fun k =>
      if key = k then some (true, index)
      else if key < k then
        let rem := range % 2
        let range1' := range
        let index := if rem = 1 then sub32 index 1 else index
        let range' := range1' / 2
        searchLoop keys key f (sub32 index range') range' range1'
      else
        let rem1 := range1 % 2
        let range1' := if rem1 = 0 then sub32 range 1 else range
        let range' := range1' / 2
        searchLoop keys key f (add32 index (add32 range' 1)) range' range1'
    else some (false, index)

/-- `BinaryTree.h:215-251` `BinarySearch`: found flag and `index`.  `f` is the fuel of the loop. -/
def binarySearch (f : Nat) (t : Tree V) (key : Nat) : Option (Bool × Nat) :=
  searchLoop t.keys key f (t.vals.length / 2) (t.vals.length / 2) t.vals.length

/-- `StaticListHolder.cpp:139-184` `Insert` seen on lists. -/
def listInsert {α : Type} (limit : Nat) (l : List α) (i : Nat) (a : α) : Bool × List α :=
  if i ≤ l.length ∧ l.length < limit then (true, l.take i ++ a :: l.drop i) else (false, l)

/-- `BinaryTree.h:147-158` `Insert`: success flag and index. -/
def insert (f limK limV : Nat) (t : Tree V) (key : Nat) (v : V) : Option (Bool × Nat × Tree V) :=
  (binarySearch f t key).bind fun r =>
  if r.1 then some (false, r.2, t)
  else
    let k := listInsert limK t.keys r.2 key
    if k.1 then
      let l := listInsert limV t.vals r.2 v
      some (l.1, r.2, ⟨k.2, l.2⟩)
    else some (false, r.2, t)

/-- `BinaryTree.h:161-171` `Remove`. -/
def remove (f : Nat) (t : Tree V) (key : Nat) : Option (Bool × Tree V) :=
  (binarySearch f t key).bind fun r =>
  if r.1 then some (true, ⟨t.keys.eraseIdx r.2, t.vals.eraseIdx r.2⟩) else some (false, t)

/-- `BinaryTree.h:200-207` `Reset` (removal of the first element until empty). -/
def reset (_ : Tree V) : Tree V := ⟨[], []⟩

open Verif.UMap (Op Out)

/-- API calls.  The index reported by `Insert` and `Search` is observed through `operator[](index)`
(`BinaryTree.h:181-183`). -/
def step {K : Type} (hash : K → Nat) (f limK limV : Nat) (t : Tree V) : Op K V → Option (Out V × Tree V)
  | .insert k v => (insert f limK limV t (hash k) v).bind fun r =>
      (at' r.2.2.vals r.2.1).map fun x => (.inserted r.1 x, r.2.2)
  | .remove k => (remove f t (hash k)).map fun r => (.flag r.1, r.2)
  | .search k => (binarySearch f t (hash k)).bind fun r =>
      if r.1 then (at' t.vals r.2).map fun x => (.found (some x), t) else some (.found none, t)
  | .reset => some (.unit, reset t)
  | .getSize => some (.size t.vals.length, t)

def run {K : Type} (hash : K → Nat) (f limK limV : Nat) (t : Tree V) : List (Op K V) → Option (List (Out V) × Tree V)
  | [] => some ([], t)
  | op :: ops => (step hash f limK limV t op).bind fun r =>
      (run hash f limK limV r.2 ops).map fun q => (r.1 :: q.1, q.2)

end Verif.BTree
