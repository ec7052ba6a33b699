/-!
# Model of `BareMetal/L0Types/LinkedListable.cpp` and `LinkedListHolder.cpp`

The heap maps an address to the `next` field of the `LinkedListable` living there (`some none` is a null
`next`), or to `none` when there is no live object at that address.  Every dereference of an address without a
live object makes the whole call `none` (undefined behaviour).  Loops carry fuel; running out of fuel is also
`none`, so a result `some _` means that the C++ loop terminates.  Filters are pure functions of the element
address.  `llhSize` is a natural number: it counts live objects, so its 32-bit width is not reached.  Null
arguments (which all the methods ignore) are not modelled.
-/
namespace Verif.LinkedList

abbrev Addr := Nat

/-- Heap of `next` fields (`LinkedListable.h`, member `next`). -/
abbrev Heap := Addr → Option (Option Addr)

/-- `p->next = v`. -/
def setNext (h : Heap) (p : Addr) (v : Option Addr) : Option Heap :=
  match h p with
  | none => none
  | some _ => some (fun a => if a = p then some v else h a)

/-- `delete p`. -/
def free (h : Heap) (p : Addr) : Option Heap :=
  match h p with
  | none => none
  | some _ => some (fun a => if a = p then none else h a)

/-- `LinkedListable.cpp:67-75` `Size`, from pointer `p`. -/
def size (h : Heap) : Nat → Option Addr → Option Nat
  | 0, _ => none
  | _ + 1, none => some 0
  | f + 1, some a => (h a).bind fun n => (size h f n).map (· + 1)

/-- `LinkedListable.cpp:123-125` (also 166-168, 177-179): go to the last element. -/
def last (h : Heap) : Nat → Addr → Option Addr
  | 0, _ => none
  | f + 1, p => (h p).bind fun n =>
    match n with
    | none => some p
    | some q => last h f q

/-- `LinkedListable.cpp:118-128` `Insert`. -/
def insert (h : Heap) (f : Nat) (this p : Addr) : Option Heap :=
  (h this).bind fun q =>
  (setNext h this (some p)).bind fun h =>
  (last h f p).bind fun l =>
  setNext h l q

/-- `LinkedListable.cpp:163-172` `Add`. -/
def add (h : Heap) (f : Nat) (this p : Addr) : Option Heap :=
  (last h f this).bind fun l =>
  (setNext h l (some p)).bind fun h =>
  setNext h p none

/-- `LinkedListable.cpp:174-182` `AddL`. -/
def addL (h : Heap) (f : Nat) (this p : Addr) : Option Heap :=
  (last h f this).bind fun l => setNext h l (some p)

/-- `LinkedListable.cpp:184-212` `Search` (both overloads), from pointer `q`. -/
def search (h : Heap) (test : Addr → Bool) : Nat → Option Addr → Option (Option Addr)
  | 0, _ => none
  | _ + 1, none => some none
  | f + 1, some q => if test q then some (some q) else (h q).bind (search h test f)

/-- `LinkedListable.cpp:221-223` and `242-253`: the element whose successor satisfies `test`. -/
def findPrev (h : Heap) (test : Addr → Bool) : Nat → Addr → Option (Option (Addr × Addr))
  | 0, _ => none
  | f + 1, q => (h q).bind fun n =>
    match n with
    | none => some none
    | some p => if test p then some (some (q, p)) else findPrev h test f p

/-- `LinkedListable.cpp:214-256` `Extract` (both overloads): the removed element. -/
def extract (h : Heap) (f : Nat) (test : Addr → Bool) (this : Addr) : Option (Option Addr × Heap) :=
  (findPrev h test f this).bind fun r =>
  match r with
  | none => some (none, h)
  | some (q, p) =>
    (h p).bind fun n =>
    (setNext h q n).bind fun h =>
    (setNext h p none).bind fun h =>
    some (some p, h)

/-- `LinkedListable.cpp:266-284` `Delete(filter)`: the number of deleted elements. -/
def deleteAll (test : Addr → Bool) : Nat → Heap → Addr → Option (Nat × Heap)
  | 0, _, _ => none
  | f + 1, h, q => (h q).bind fun n =>
    match n with
    | none => some (0, h)
    | some p =>
      if test p then
        (h p).bind fun n =>
        (setNext h q n).bind fun h =>
        (free h p).bind fun h =>
        (deleteAll test f h q).map fun r => (r.1 + 1, r.2)
      else deleteAll test f h p

/-- `LinkedListable.cpp:286-293` `Peek`. -/
def peek (h : Heap) : Nat → Option Addr → Option (Option Addr)
  | _, none => some none
  | 0, some p => some (some p)
  | i + 1, some p => (h p).bind (peek h i)

/-- The compare-and-swap body of `LinkedListable.cpp:84-94` and `101-111`: new heap and new `p`. -/
def swapStep (cmp : Addr → Addr → Int) (h : Heap) (p a1 a2 : Addr) : Option (Heap × Addr) :=
  if cmp a1 a2 > 0 then
    (h a2).bind fun n2 =>
    (setNext h a1 n2).bind fun h =>
    (setNext h a2 (some a1)).bind fun h =>
    (setNext h p (some a2)).bind fun h =>
    some (h, a2)
  else some (h, a1)

/-- `LinkedListable.cpp:82-95` first pass: final heap and `count`. -/
def firstPass (cmp : Addr → Addr → Int) : Nat → Heap → Addr → Nat → Option (Heap × Nat)
  | 0, _, _, _ => none
  | f + 1, h, p, count =>
    (h p).bind fun n1 =>
    match n1 with
    | none => none
    | some a1 =>
      (h a1).bind fun n2 =>
      match n2 with
      | none => some (h, count)
      | some a2 => (swapStep cmp h p a1 a2).bind fun r => firstPass cmp f r.1 r.2 (count + 1)

/-- `LinkedListable.cpp:99-112` inner loop, `k` = `index - 2` iterations. -/
def innerPass (cmp : Addr → Addr → Int) : Nat → Heap → Addr → Option Heap
  | 0, h, _ => some h
  | k + 1, h, p =>
    (h p).bind fun n1 =>
    match n1 with
    | none => none
    | some a1 =>
      (h a1).bind fun n2 =>
      match n2 with
      | none => none
      | some a2 => (swapStep cmp h p a1 a2).bind fun r => innerPass cmp k r.1 r.2

/-- `LinkedListable.cpp:96-114` outer loop, `k` = `count - 2`. -/
def outerPass (cmp : Addr → Addr → Int) (this : Addr) : Nat → Heap → Option Heap
  | 0, h => some h
  | k + 1, h => (innerPass cmp (k + 1) h this).bind fun h => outerPass cmp this k h

/-- `LinkedListable.cpp:77-116` `BSort`. -/
def bsort (cmp : Addr → Addr → Int) (h : Heap) (f : Nat) (this : Addr) : Option Heap :=
  (h this).bind fun n =>
  match n with
  | none => some h
  | some _ => (firstPass cmp f h this 1).bind fun r => outerPass cmp this (r.2 - 2) r.1

/-- `LinkedListable.cpp:144-158` merge of the sorted chain `p` into the list. -/
def merge (cmp : Addr → Addr → Int) : Nat → Heap → Addr → Option Addr → Option Heap
  | 0, _, _, _ => none
  | f + 1, h, list, p =>
    (h list).bind fun n =>
    match p with
    | none => some h
    | some p =>
      match n with
      | none => setNext h list (some p)
      | some nx =>
        if cmp nx p > 0 then
          (h p).bind fun p' =>
          (setNext h p (some nx)).bind fun h =>
          (setNext h list (some p)).bind fun h =>
          merge cmp f h list p'
        else merge cmp f h nx (some p)

/-- `LinkedListable.cpp:130-161` sorted `Insert`.  `tmp` is the address of the local variable `root`. -/
def insertSorted (cmp : Addr → Addr → Int) (h : Heap) (f : Nat) (this p tmp : Addr) : Option Heap :=
  (h p).bind fun n =>
  match n with
  | none => merge cmp f h this (some p)
  | some _ =>
    (bsort cmp (fun a => if a = tmp then some (some p) else h a) f tmp).bind fun h =>
    (h tmp).bind fun p' =>
    (free h tmp).bind fun h =>
    merge cmp f h this p'

/-- `LinkedListHolder.h` members: `llhRoot` lives at address 0, `llhSize`. -/
structure Holder where
  heap : Heap
  size : Nat

def root : Addr := 0

/-- A `LinkedListHolder` with no other object in the heap (`LinkedListHolder.cpp:60-64`). -/
def empty : Holder := { heap := fun a => if a = root then some none else none, size := 0 }

/-- `LinkedListHolder.cpp:110-113` skip to the insertion point. -/
def skip (h : Heap) : Nat → Addr → Option Addr
  | 0, p => (h p).map fun _ => p
  | i + 1, p => (h p).bind fun n =>
    match n with
    | none => some p
    | some q => skip h i q

/-- `LinkedListHolder.cpp:218-221`: `index` steps from the root, stopping at null. -/
def skipAll (h : Heap) : Nat → Option Addr → Option (Option Addr)
  | _, none => some none
  | 0, some p => some (some p)
  | i + 1, some p => (h p).bind (skipAll h i)

/-- Calls of the holder API (and the creation of a new element). -/
inductive Op where
  | new (p : Addr)
  | insert (p : Addr)
  | insertAt (p : Addr) (index : Nat)
  | insertSorted (p : Addr) (cmp : Addr → Addr → Int)
  | add (p : Addr)
  | addL (p : Addr)
  | extract (p : Addr)
  | extractFilter (test : Addr → Bool)
  | extractAt (index : Nat)
  | delete (p : Addr)
  | deleteFilter (test : Addr → Bool)
  | search (p : Addr)
  | searchFilter (test : Addr → Bool)
  | peek (index : Nat)
  | sort (cmp : Addr → Addr → Int)

/-- What a call returns. -/
inductive Out where
  | unit
  | flag (b : Bool)
  | elem (p : Option Addr)
deriving DecidableEq

/-- One call.  `f` is the fuel of its loops; `tmp` the address of the stack object used by the sorted insertion. -/
def step (f : Nat) (tmp : Addr) (s : Holder) : Op → Option (Out × Holder)
  /- `new LinkedListable()` (`LinkedListable.cpp:51-53`) at an address returned by the allocator. -/
  | .new p => some (.unit, { s with heap := fun a => if a = p then some none else s.heap a })
  /- `LinkedListHolder.cpp:87-93` -/
  | .insert p => (size s.heap f (some p)).bind fun n => (insert s.heap f root p).map fun h =>
      (.unit, ⟨h, s.size + n⟩)
  /- `LinkedListHolder.cpp:105-117` -/
  | .insertAt q i => (skip s.heap i root).bind fun p => (size s.heap f (some q)).bind fun n =>
      (insert s.heap f p q).map fun h => (.unit, ⟨h, s.size + n⟩)
  /- `LinkedListHolder.cpp:96-103` -/
  | .insertSorted p cmp => (size s.heap f (some p)).bind fun n =>
      (insertSorted cmp s.heap f root p tmp).map fun h => (.unit, ⟨h, s.size + n⟩)
  /- `LinkedListHolder.cpp:119-125` -/
  | .add p => (add s.heap f root p).map fun h => (.unit, ⟨h, s.size + 1⟩)
  /- `LinkedListHolder.cpp:127-133` -/
  | .addL p => (size s.heap f (some p)).bind fun n => (addL s.heap f root p).map fun h => (.unit, ⟨h, s.size + n⟩)
  /- `LinkedListHolder.cpp:145-155` -/
  | .extract p => (extract s.heap f (fun a => a = p) root).map fun r =>
      (.flag r.1.isSome, ⟨r.2, if r.1.isSome then s.size - 1 else s.size⟩)
  /- `LinkedListHolder.cpp:157-163` -/
  | .extractFilter t => (extract s.heap f t root).map fun r =>
      (.elem r.1, ⟨r.2, if r.1.isSome then s.size - 1 else s.size⟩)
  /- `LinkedListHolder.cpp:214-236` -/
  | .extractAt i => (skipAll s.heap i (some root)).bind fun p =>
      match p with
      | none => some (.elem none, s)
      | some p => (s.heap p).bind fun q =>
        match q with
        | none => some (.elem none, s)
        | some q => (s.heap q).bind fun n => (setNext s.heap p n).bind fun h => (setNext h q none).bind fun h =>
          some (.elem (some q), ⟨h, s.size - 1⟩)
  /- `LinkedListHolder.cpp:165-173`, `LinkedListable.cpp:258-264` -/
  | .delete p => (extract s.heap f (fun a => a = p) root).bind fun r =>
      if r.1.isSome then (free r.2 p).map fun h => (.flag true, ⟨h, s.size - 1⟩)
      else some (.flag false, ⟨r.2, s.size⟩)
  /- `LinkedListHolder.cpp:175-179` -/
  | .deleteFilter t => (deleteAll t f s.heap root).map fun r => (.flag (r.1 > 0), ⟨r.2, s.size - r.1⟩)
  /- `LinkedListHolder.cpp:135-138` -/
  | .search p => (s.heap root).bind fun n => (search s.heap (fun a => a = p) f n).map fun r => (.flag r.isSome, s)
  /- `LinkedListHolder.cpp:140-143` -/
  | .searchFilter t => (s.heap root).bind fun n => (search s.heap t f n).map fun r => (.elem r, s)
  /- `LinkedListHolder.cpp:210-212` -/
  | .peek i => (s.heap root).bind fun n => (peek s.heap i n).map fun r => (.elem r, s)
  /- `LinkedListHolder.cpp:206-208` -/
  | .sort cmp => (bsort cmp s.heap f root).map fun h => (.unit, ⟨h, s.size⟩)

/-- A history of calls. -/
def run (f : Nat) (tmp : Addr) (s : Holder) : List Op → Option (List Out × Holder)
  | [] => some ([], s)
  | op :: ops => (step f tmp s op).bind fun r => (run f tmp r.2 ops).map fun q => (r.1 :: q.1, q.2)

/-- Walking the list: `for (p = List(); p != NULL; p = p->Next())`. -/
def walk (h : Heap) : Nat → Option Addr → Option (List Addr)
  | 0, _ => none
  | _ + 1, none => some []
  | f + 1, some a => (h a).bind fun n => (walk h f n).map (a :: ·)

end Verif.LinkedList
