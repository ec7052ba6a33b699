/-!
# Model of `BareMetal/L1Portability/HeapManager.cpp` and `Environment/Generic/StandardHeap_Generic.cpp`

With `MULTIHEAP_SUPPORT` (without it all requests go to the standard heap).  The heaps of the user are identified by numbers; what they
answer to `Name`, `FirstAddress` and `LastAddress` is given.  The C library is an environment that answers each request.  The lock of the
database always succeeds; `uintp` has 64 bits.
-/
namespace Verif.Heaps

/-- `HeapI.h:83-128`: what the manager asks from a heap. -/
structure Heap where
  name : List Char
  first : Nat
  last : Nat

/-- `HeapI.h:112-120` `Owns`. -/
def Heap.owns (h : Heap) (address : Nat) : Bool := decide (address ≥ h.first) && decide (address ≤ h.last)

/-- `uintp` subtraction. -/
def Heap.span (h : Heap) : Nat := (h.last + 18446744073709551616 - h.first) % 18446744073709551616

/-- `HeapManager.cpp:190-195`: the slots of `HeapDatabase`; `none` is `NULL`. -/
def empty : List (Option Nat) := List.replicate 16 none

/-- `HeapManager.cpp:467-471` with `SetHeap` (163-179): the loop that tries to set each slot. -/
def setFirst (h : Nat) : List (Option Nat) → Option (List (Option Nat))
  | [] => none
  | none :: s => some (some h :: s)
  | some g :: s => (setFirst h s).map (some g :: ·)

/-- `HeapManager.cpp:440-495` `AddHeap`. -/
def addHeap (slots : List (Option Nat)) : Option Nat → Bool × List (Option Nat)
  | none => (false, slots)
  | some h =>
    if some h ∈ slots then (false, slots)
    else
      match setFirst h slots with
      | some s => (true, s)
      | none => (false, slots)

/-- `HeapManager.cpp:497-519` `RemoveHeap` with `UnsetHeap` (181-188): `NULL` is compared as any other pointer. -/
def removeHeap (h : Option Nat) : List (Option Nat) → Bool × List (Option Nat)
  | [] => (false, [])
  | g :: s =>
    if g = h then (true, none :: s)
    else
      let r := removeHeap h s
      (r.1, g :: r.2)

/-- `HeapManager.cpp:238-273`: the loop of `FindHeap(address)`; `found` and its span. -/
def findLoop (info : Nat → Heap) (address : Nat) : List (Option Nat) → Option Nat → Nat → Option Nat
  | [], found, _ => found
  | none :: s, found, span => findLoop info address s found span
  | some h :: s, found, span =>
    if (info h).owns address then
      match found with
      | none => findLoop info address s (some h) (info h).span
      | some _ =>
        if (info h).span < span then findLoop info address s (some h) (info h).span
        else findLoop info address s found span
    else findLoop info address s found span

/-- A heap of the user or the standard heap. -/
inductive Which where
  | user (h : Nat)
  | standard
  deriving DecidableEq, Repr

/-- `StandardHeap.h`: `firstAddress`, `lastAddress`; `live` are the blocks of the C library that are not freed. -/
structure Std where
  first : Nat
  last : Nat
  live : List Nat
  deriving DecidableEq, Repr

/-- `HeapI.h:112-120` for the standard heap. -/
def Std.owns (s : Std) (address : Nat) : Bool := decide (address ≥ s.first) && decide (address ≤ s.last)

/-- `HeapManager.cpp:220-295` `FindHeap(address)`. -/
def findAddress (info : Nat → Heap) (std : Std) (slots : List (Option Nat)) (address : Nat) : Option Which :=
  match findLoop info address slots none 0 with
  | some h => some (.user h)
  | none => if std.owns address then some .standard else none

/-- `HeapManager.cpp:297-344` `FindHeap(name)` for a name that is not `NULL`. -/
def findName (info : Nat → Heap) (name : List Char) : List (Option Nat) → Option Nat
  | [] => none
  | none :: s => findName info name s
  | some h :: s => if (info h).name = name then some h else findName info name s

/-- `HeapManager.cpp:365-388` `Malloc`: the heap that is asked. -/
def mallocFrom (info : Nat → Heap) (slots : List (Option Nat)) : Option (List Char) → Option Which
  | none => some .standard
  | some name => (findName info name slots).map .user

/-- `HeapManager.cpp:346-363` `Free`: the heap that is asked, if any (then the result is true). -/
def freeTo (info : Nat → Heap) (std : Std) (slots : List (Option Nat)) (address : Nat) : Option Which :=
  findAddress info std slots address

/-- `HeapManager.cpp:390-405` `Realloc`: the heap that is asked. -/
def reallocFrom (info : Nat → Heap) (std : Std) (slots : List (Option Nat)) (address : Nat) : Which :=
  (findAddress info std slots address).getD .standard

/-- `HeapManager.cpp:407-438` `Duplicate`: the heap that is asked. -/
def duplicateFrom (info : Nat → Heap) (std : Std) (slots : List (Option Nat)) (address : Nat) (name : Option (List Char)) : Which :=
  match name.bind fun n => findName info n slots with
  | some h => .user h
  | none => (findAddress info std slots address).getD .standard

/-! ## The standard heap -/

/-- `StandardHeap_Generic.cpp:75-83`: the range after a block of `size` bytes at `address`. -/
def Std.take (s : Std) (address size : Nat) : Std :=
  let first := if s.first > address ∨ s.first = 0 then address else s.first
  let stop := (address + size) % 18446744073709551616
  let last := if s.last < stop ∨ s.last = 0 then stop else s.last
  { s with first := first, last := last }

/-- The requests, with the answer of the C library (`none` is `NULL`). -/
inductive Call where
  | malloc (size : Nat) (answer : Option Nat)
  | free (data : Option Nat)
  | realloc (data : Option Nat) (newSize : Nat) (answer : Option Nat)
  | duplicate (data : Option Nat) (size textLength : Nat) (answer : Option Nat)

/-- `StandardHeap_Generic.cpp:60-90` `Malloc`. -/
def Std.malloc (s : Std) (size : Nat) (answer : Option Nat) : Option Nat × Std :=
  if size ≠ 0 then
    match answer with
    | some a => (some a, ({ s with live := a :: s.live } : Std).take a size)
    | none => (none, s)
  else (none, s)

/-- `StandardHeap_Generic.cpp:93-100` `Free`. -/
def Std.free (s : Std) : Option Nat → Std
  | some a => { s with live := s.live.erase a }
  | none => s

/-- One request to the standard heap; the result is the returned pointer. -/
def Std.step (s : Std) : Call → Option Nat × Std
  | .malloc size answer => s.malloc size answer
  | .free data => (none, s.free data)
  -- `StandardHeap_Generic.cpp:103-135` `Realloc`; a failed `realloc` of the C library leaves the block as it is
  | .realloc none newSize answer => s.malloc newSize answer
  | .realloc (some d) newSize answer =>
    if newSize = 0 then (none, s.free (some d))
    else
      match answer with
      | some a => (some a, ({ s with live := a :: s.live.erase d } : Std).take a newSize)
      | none => (none, s)
  -- `StandardHeap_Generic.cpp:138-189` `Duplicate`
  | .duplicate none _ _ _ => (none, s)
  | .duplicate (some _) size textLength answer =>
    if size = 0 then
      match answer with
      | some a => (some a, ({ s with live := a :: s.live } : Std).take a (textLength + 1))
      | none => (none, s)
    else
      let r := s.malloc size answer
      match r.1 with
      | some a => (some a, r.2.take a size)
      | none => (none, r.2)

/-- A history of requests. -/
def Std.run (s : Std) : List Call → Std
  | [] => s
  | c :: cs => Std.run (s.step c).2 cs

/-! ## Two threads in the standard heap -/

/-- `StandardHeap_Generic.cpp:76-83`, one access of the shared addresses at a time: test of `firstAddress`, its update, test of
`lastAddress`, its update.  The test of `firstAddress` reads it twice; here once. -/
inductive Pc where
  | testFirst
  | setFirst
  | testLast
  | setLast
  | done
  deriving DecidableEq, Repr

/-- A thread that has got a block. -/
structure Taker where
  address : Nat
  size : Nat
  pc : Pc
  deriving DecidableEq, Repr

def Taker.step (t : Taker) (s : Std) : Taker × Std :=
  match t.pc with
  | .testFirst => ({ t with pc := if s.first > t.address ∨ s.first = 0 then .setFirst else .testLast }, s)
  | .setFirst => ({ t with pc := .testLast }, { s with first := t.address })
  | .testLast => ({ t with pc := if s.last < t.address + t.size ∨ s.last = 0 then .setLast else .done }, s)
  | .setLast => ({ t with pc := .done }, { s with last := t.address + t.size })
  | .done => (t, s)

/-- A schedule of two threads: true for the first one. -/
def race (a b : Taker) (s : Std) : List Bool → Taker × Taker × Std
  | [] => (a, b, s)
  | true :: w => race (a.step s).1 b (a.step s).2 w
  | false :: w => race a (b.step s).1 (b.step s).2 w

end Verif.Heaps
