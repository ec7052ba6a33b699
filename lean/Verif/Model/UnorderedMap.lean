/-!
# Model of `BareMetal/L1Portability/UnorderedMap.h`

Each bucket (`LinkedListHolderT<UnorderedMapEntry<T>>`) is the list of its entries `(hash, value)`; that the linked
list behaves as a list is C02.  The functions take the 64-bit hash of the identifier, which is all the code ever
looks at.  `none` is undefined behaviour (division by zero / access outside of the bucket array).  Null
identifiers are not modelled.
-/
namespace Verif.UMap

/-- `UnorderedMap.h:147-162`: `entries` (its length is `capacity`) and `size`. -/
structure UMap (V : Type) where
  buckets : List (List (Nat × V))
  size : Nat

variable {V : Type}

/-- `UnorderedMap.h:166-170` constructor. -/
def empty : UMap V := ⟨[], 0⟩

/-- `entries[i].ListAdd(e)`. -/
def addAt (i : Nat) (e : Nat × V) : List (List (Nat × V)) → List (List (Nat × V))
  | [] => []
  | b :: bs => match i with
    | 0 => (b ++ [e]) :: bs
    | i + 1 => b :: addAt i e bs

/-- `UnorderedMap.h:282-305` `Resize`: the old entries, bucket by bucket, are added to a table twice as big
(`capacity *= 2` is a `uint32` product). -/
def resize (m : UMap V) : Option (UMap V) :=
  let cap := m.buckets.length * 2 % 2 ^ 32
  let old := m.buckets.flatten
  if cap = 0 ∧ old ≠ [] then none
  else some ⟨old.foldl (fun bs e => addAt (e.1 % cap) e bs) (List.replicate cap []), old.length % 2 ^ 32⟩

/-- `UnorderedMap.h:181-192`: first allocation or growth. -/
def grow (init loadFactor : Nat) (m : UMap V) : Option (UMap V) :=
  if m.buckets.length = 0 then some { m with buckets := List.replicate init [] }
  else if m.size * 100 % 2 ^ 32 / m.buckets.length > loadFactor then resize m
  else some m

/-- The loops `for (j=0; j<listSize; j++)` of 199-206, 226-234 and 248-255: first entry with that hash. -/
def findHash (hash : Nat) (b : List (Nat × V)) : Option (Nat × V) := b.find? (fun e => e.1 == hash)

/-- `UnorderedMap.h:180-215` `Insert`: success flag, and the final content of the `value` argument. -/
def insert (init loadFactor : Nat) (m : UMap V) (hash : Nat) (value : V) : Option (Bool × V × UMap V) :=
  (grow init loadFactor m).bind fun m =>
  if m.buckets.length = 0 then none
  else
    let i := hash % m.buckets.length
    (m.buckets[i]?).bind fun b =>
    match findHash hash b with
    | some e => some (false, e.2, m)
    | none => some (true, value, ⟨addAt i (hash, value) m.buckets, (m.size + 1) % 2 ^ 32⟩)

/-- `UnorderedMap.h:218-237` `Remove`. -/
def remove (m : UMap V) (hash : Nat) : Option (Bool × UMap V) :=
  if m.buckets.length = 0 then some (false, m)
  else
    let i := hash % m.buckets.length
    (m.buckets[i]?).bind fun b =>
    match findHash hash b with
    | some _ => some (true, ⟨m.buckets.set i (b.eraseP (fun e => e.1 == hash)), (m.size + 2 ^ 32 - 1) % 2 ^ 32⟩)
    | none => some (false, m)

/-- `UnorderedMap.h:240-258` `Search`: the value found. -/
def search (m : UMap V) (hash : Nat) : Option (Option V) :=
  if m.buckets.length = 0 then some none
  else
    (m.buckets[hash % m.buckets.length]?).bind fun b => some ((findHash hash b).map (·.2))

/-- `UnorderedMap.h:268-274` `Reset`. -/
def reset (m : UMap V) : UMap V := ⟨List.replicate m.buckets.length [], 0⟩

/-- Calls of the API on identifiers of type `K`. -/
inductive Op (K V : Type) where
  | insert (k : K) (v : V)
  | remove (k : K)
  | search (k : K)
  | reset
  | getSize

inductive Out (V : Type) where
  | inserted (ok : Bool) (v : V)
  | flag (ok : Bool)
  | found (v : Option V)
  | size (n : Nat)
  | unit
deriving DecidableEq

def step {K : Type} (hash : K → Nat) (init lf : Nat) (m : UMap V) : Op K V → Option (Out V × UMap V)
  | .insert k v => (insert init lf m (hash k) v).map fun r => (.inserted r.1 r.2.1, r.2.2)
  | .remove k => (remove m (hash k)).map fun r => (.flag r.1, r.2)
  | .search k => (search m (hash k)).map fun r => (.found r, m)
  | .reset => some (.unit, reset m)
  | .getSize => some (.size m.size, m)

def run {K : Type} (hash : K → Nat) (init lf : Nat) (m : UMap V) : List (Op K V) → Option (List (Out V) × UMap V)
  | [] => some ([], m)
  | op :: ops => (step hash init lf m op).bind fun r => (run hash init lf r.2 ops).map fun q => (r.1 :: q.1, q.2)

end Verif.UMap
