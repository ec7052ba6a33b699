import Verif.Model.Bytes
/-!
# Model of `BareMetal/L1Portability/StaticListHolder.cpp`, `StaticList.h`, `StaticStack.h`,
`CircularStaticList.h`

The allocated memory is a list of bytes.  Every access to it goes through `Bytes.read`/`Bytes.write`/
`Bytes.move`, which give `none` outside the block, so a result of `none` means undefined behaviour.
`uint32` additions that can wrap are reduced modulo 2^32.  Null element pointers are not modelled (the
typed wrappers never pass one).  Each growing call takes `allocOk`, the outcome of the heap allocation.
-/
namespace Verif.StaticList

/-- `StaticListHolder.cpp:49-70` members (`listElementSize_`, `listAllocationGranularity_`,
`maxListCapacity_`, `allocatedMemory_`, `listCapacity_`, `listSize_`). -/
structure Holder where
  es : Nat
  gran : Nat
  maxCap : Nat
  mem : List UInt8
  cap : Nat
  size : Nat

/-- `StaticListHolder.cpp:49-70` constructor; `MAX_STATICLISTHOLDER_BYTESIZE` is 2^32 - 1. -/
def new (es gran : Nat) : Holder :=
  { es, gran, maxCap := ((2 ^ 32 - 1) / (gran * es)) * (gran * es) / es, mem := [], cap := 0, size := 0 }

/-- `StaticListHolder.cpp:270-308` `IncreaseCapacity`.  `Realloc` keeps the old bytes; the new ones are
arbitrary (zero here). -/
def increaseCapacity (h : Holder) (allocOk : Bool) : Bool × Holder :=
  if (h.cap + h.gran) % 2 ^ 32 > h.maxCap then (false, h)
  else
    let newCap := (h.cap + h.gran) % 2 ^ 32
    if allocOk then
      let bytes := newCap * h.es % 2 ^ 32
      (true, { h with mem := (h.mem ++ List.replicate (bytes - h.mem.length) 0).take bytes, cap := newCap })
    else (false, h)

/-- The growth test shared by `Add` (113-123) and `Insert` (149-159). -/
def ensure (h : Holder) (allocOk : Bool) : Bool × Holder :=
  if h.size + 1 > h.cap then
    if (h.cap + h.gran) % 2 ^ 32 ≤ h.maxCap then increaseCapacity h allocOk else (false, h)
  else (true, h)

/-- `StaticListHolder.cpp:104-137` `Add`. -/
def add (h : Holder) (v : List UInt8) (allocOk : Bool) : Option (Bool × Holder) :=
  match ensure h allocOk with
  | (false, h) => some (false, h)
  | (true, h) => do
    let mem ← Bytes.write h.mem (h.es * h.size) v
    some (true, { h with mem, size := h.size + 1 })

/-- `StaticListHolder.cpp:139-184` `Insert`. -/
def insert (h : Holder) (position : Nat) (v : List UInt8) (allocOk : Bool) : Option (Bool × Holder) :=
  if position > h.size then some (false, h)
  else
    match ensure h allocOk with
    | (false, h) => some (false, h)
    | (true, h) =>
      (if position < h.size then
        Bytes.move h.mem (h.es * position + h.es) (h.es * position) (h.es * (h.size - position))
       else some h.mem).bind fun mem =>
      (Bytes.write mem (h.es * position) v).bind fun mem =>
      some (true, { h with mem, size := h.size + 1 })

/-- `StaticListHolder.cpp:186-206` `Peek`: the returned option is the copied element. -/
def peek (h : Holder) (position : Nat) : Option (Option (List UInt8)) :=
  if position ≥ h.size then some none
  else do
    let v ← Bytes.read h.mem (h.es * position) h.es
    some (some v)

/-- `StaticListHolder.cpp:208-235` `Remove`. -/
def remove (h : Holder) (position : Nat) : Option (Bool × Holder) :=
  if position ≥ h.size then some (false, h)
  else
    (if position < h.size - 1 then
      Bytes.move h.mem (h.es * position) (h.es * position + h.es) (h.es * (h.size - 1 - position))
     else some h.mem).bind fun mem =>
    some (true, { h with mem, size := h.size - 1 })

/-- `StaticListHolder.cpp:237-268` `Extract`. -/
def extract (h : Holder) (position : Nat) : Option (Option (List UInt8) × Holder) :=
  if position ≥ h.size then some (none, h)
  else
    (Bytes.read h.mem (h.es * position) h.es).bind fun v =>
    (if position < h.size - 1 then
      Bytes.move h.mem (h.es * position) (h.es * position + h.es) (h.es * (h.size - 1 - position))
     else some h.mem).bind fun mem =>
    some (some v, { h with mem, size := h.size - 1 })

/-- `StaticListHolder.cpp:318-327` `Set`. -/
def set (h : Holder) (position : Nat) (v : List UInt8) : Option (Bool × Holder) :=
  if position < h.size then do
    let mem ← Bytes.write h.mem (position * h.es) v
    some (true, { h with mem })
  else some (false, h)

/-- `StaticListHolder.h:330-332` `Clean`. -/
def clean (h : Holder) : Holder := { h with size := 0 }

/-- `StaticList.h:239-243` `operator[]`: positions past the end read the last element (`GetSize() - 1u` is a
`uint32`: on an empty list it wraps and the access is out of the block). -/
def index (h : Holder) (pos : Nat) : Option (List UInt8) :=
  let lastPos := (h.size + 2 ^ 32 - 1) % 2 ^ 32
  if pos > lastPos then Bytes.read h.mem (h.es * lastPos) h.es else Bytes.read h.mem (h.es * pos) h.es

/-- Operations of the public API, for histories. -/
inductive Op where
  | add (v : List UInt8) (allocOk : Bool)
  | insert (pos : Nat) (v : List UInt8) (allocOk : Bool)
  | set (pos : Nat) (v : List UInt8)
  | remove (pos : Nat)
  | extract (pos : Nat)
  | peek (pos : Nat)
  | clean

/-- What a call returns: its success flag and, for `Peek`/`Extract`, the copied element. -/
structure Out where
  ok : Bool
  value : Option (List UInt8) := none
deriving DecidableEq

/-- One API call (`none` = undefined behaviour). -/
def step (h : Holder) : Op → Option (Out × Holder)
  | .add v a => (add h v a).map (fun r => ({ ok := r.1 }, r.2))
  | .insert p v a => (insert h p v a).map (fun r => ({ ok := r.1 }, r.2))
  | .set p v => (set h p v).map (fun r => ({ ok := r.1 }, r.2))
  | .remove p => (remove h p).map (fun r => ({ ok := r.1 }, r.2))
  | .extract p => (extract h p).map (fun r => ({ ok := r.1.isSome, value := r.1 }, r.2))
  | .peek p => (peek h p).map (fun r => ({ ok := r.isSome, value := r }, h))
  | .clean => some ({ ok := true }, clean h)

/-- A history. -/
def run (h : Holder) : List Op → Option (List Out × Holder)
  | [] => some ([], h)
  | op :: ops => do
    let (o, h) ← step h op
    let (os, h) ← run h ops
    some (o :: os, h)

end Verif.StaticList
