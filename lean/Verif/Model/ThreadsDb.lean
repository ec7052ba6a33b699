/-!
# Model of `ThreadsDatabase`

`Source/Core/Scheduler/L1Portability/Environment/Generic/ThreadsDatabase_Generic.cpp`.  The callers hold the lock, so the
operations are one after the other.  A read outside of the array, or through a null pointer, is `none`.
-/
namespace Verif.ThreadsDb

/-- `ThreadInformation.h`: the identifier and the name (null or a text) of a thread; `info` stands for the rest. -/
structure Rec where
  id : Nat
  name : Option (List Char)
  info : Nat
deriving DecidableEq, Repr

/-- `ThreadsDatabase_Generic.cpp:50-65`: `entries` (null or the array of pointers), `nOfEntries` and `maxNOfEntries`. -/
structure Db where
  entries : Option (List (Option Rec))
  n : Nat
  max : Nat
deriving DecidableEq

/-- `ThreadsDatabase_Generic.cpp:55-65`: the values at the start. -/
def empty : Db := ⟨none, 0, 0⟩

/-- `ThreadsDatabase_Generic.cpp:221-263` `AllocMore`; `alloc`: the allocation succeeds; `g` is
`THREADS_DATABASE_GRANULARITY`. -/
def allocMore (g : Nat) (alloc : Bool) (db : Db) : Bool × Db :=
  if db.max ≤ db.n then
    match db.entries with
    | none => if alloc then (true, ⟨some (List.replicate g none), 0, g⟩) else (false, db)
    | some l => if alloc then (true, ⟨some (l ++ List.replicate g none), db.n, db.max + g⟩) else (false, { db with entries := none })
  else (true, db)

/-- `ThreadsDatabase_Generic.cpp:79-92`: the loop that looks for an empty place; the inner `none`: there is none. -/
def search (l : List (Option Rec)) (max stop : Nat) : (fuel index : Nat) → Option (Option Nat)
  | 0, _ => none
  | fuel + 1, index =>
    if index ≠ stop then
      match l[index]? with
      | none => none
      | some none => some (some index)
      | some (some _) => search l max stop fuel (if index + 1 ≥ max then index + 1 - max else index + 1)
    else some none

/-- `ThreadsDatabase_Generic.cpp:71-99` `NewEntry`.  The counts are taken below `2^29`, where the size in bytes of the array wraps
around; `nOfEntries - 1u` wraps around at zero. -/
def newEntry (g : Nat) (alloc : Bool) (r : Rec) (db : Db) : Option (Bool × Db) :=
  let (ok, db) := allocMore g alloc db
  if ok then
    if db.n < db.max then
      match db.entries with
      | none => none
      | some l =>
        match search l db.max (if db.n = 0 then 2 ^ 32 - 1 else db.n - 1) (db.max + 1) db.n with
        | none => none
        | some none => some (false, db)
        | some (some i) => some (true, ⟨some (l.set i (some r)), db.n + 1, db.max⟩)
    else some (false, db)
  else some (false, db)

/-- `ThreadsDatabase_Generic.cpp:104-128`, `137-147`, `207-216`: the loop over the places, up to the first record with
`p`. -/
def scan (entries : Option (List (Option Rec))) (max : Nat) (p : Rec → Bool) : (fuel index : Nat) → Option (Option (Nat × Rec))
  | 0, _ => some none
  | fuel + 1, index =>
    if index < max then
      match entries with
      | none => none
      | some l =>
        match l[index]? with
        | none => none
        | some none => scan entries max p fuel (index + 1)
        | some (some r) => if p r then some (some (index, r)) else scan entries max p fuel (index + 1)
    else some none

/-- `ThreadsDatabase_Generic.cpp:101-132` `RemoveEntry`: the record, if any.  The array is taken to be freed. -/
def removeEntry (threadId : Nat) (db : Db) : Option (Option Rec × Db) :=
  (scan db.entries db.max (fun r => r.id == threadId) db.max 0).map fun
    | none => (none, db)
    | some (i, r) =>
      if db.n - 1 = 0 then (some r, ⟨none, 0, 0⟩)
      else (some r, ⟨db.entries.map fun l => l.set i none, db.n - 1, db.max⟩)

/-- `ThreadsDatabase_Generic.cpp:134-149` `GetThreadInformation`, and `GetInfo` (`196-202`), that copies it. -/
def getInfo (threadId : Nat) (db : Db) : Option (Option Rec) :=
  (scan db.entries db.max (fun r => r.id == threadId) db.max 0).map fun o => o.map (·.2)

/-- `ThreadsDatabase_Generic.cpp:204-219` `Find` (`StringHelper::Compare` of a null name is never zero). -/
def find (name : List Char) (db : Db) : Option Nat :=
  (scan db.entries db.max (fun r => r.name == some name) db.max 0).map fun
    | none => 0
    | some (_, r) => r.id

/-- `ThreadsDatabase_Generic.cpp:166-173`: the loop of `GetThreadID`: what is left of `notEmptyN` and `index`. -/
def countTo (entries : Option (List (Option Rec))) (max : Nat) : (fuel notEmptyN index : Nat) → Option (Nat × Nat)
  | 0, c, i => some (c, i)
  | fuel + 1, c, i =>
    if c ≠ 0 ∧ i < max then
      match entries with
      | none => none
      | some l =>
        match l[i]? with
        | none => none
        | some none => countTo entries max fuel c (i + 1)
        | some (some _) => countTo entries max fuel (c - 1) (i + 1)
    else some (c, i)

/-- `ThreadsDatabase_Generic.cpp:164-185` `GetThreadID`. -/
def getThreadId (n : Nat) (db : Db) : Option Nat :=
  (countTo db.entries db.max db.max ((n + 1) % 2 ^ 32) 0).bind fun r =>
    let index := if r.2 = 0 then 2 ^ 32 - 1 else r.2 - 1
    if r.1 ≠ 0 then some 0
    else
      db.entries.bind fun l =>
        match l[index]? with
        | none => none
        | some none => some 0
        | some (some e) => some e.id

/-- `ThreadsDatabase_Generic.cpp:187-194` `GetInfoIndex`. -/
def getInfoIndex (n : Nat) (db : Db) : Option (Option Rec) := (getThreadId n db).bind fun i => getInfo i db

/-- The operations that change the database. -/
inductive Op
  | new (r : Rec)
  | remove (id : Nat)

/-- A history, in which the allocations succeed; the answers of the insertions are kept. -/
def run (g : Nat) : List Op → Db → Option (List Bool × Db)
  | [], db => some ([], db)
  | .new r :: ops, db => (newEntry g true r db).bind fun x => (run g ops x.2).map fun y => (x.1 :: y.1, y.2)
  | .remove i :: ops, db => (removeEntry i db).bind fun x => (run g ops x.2).map fun y => (x.1.isSome :: y.1, y.2)

end Verif.ThreadsDb
