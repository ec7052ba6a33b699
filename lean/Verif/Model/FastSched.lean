/-!
# Model of the thread map of `FastScheduler`

`Scheduler/L5GAMs/FastScheduler.cpp`.  A state is the list of the processor masks of its threads (`GetProcessorMask`, lines
220, 326).  The arrays are functions: all the indexes are below their sizes, but for the one of a thread that finds no place,
which is a distinct outcome.  The memory is taken to be there, the numbers of threads to be below `2^32`.
-/
namespace Verif.FastSched

/-- `FastScheduler.cpp:47` -/
def allCpus : Nat := 2 ^ 64 - 1

/-- `FastScheduler.cpp:236-249`: the largest number of threads with that mask in one state. -/
def largest (cpu : Nat) (states : List (List Nat)) : Nat :=
  states.foldl (fun m st => if st.count cpu > m then st.count cpu else m) 0

/-- `FastScheduler.cpp:219-252`: the loop over the threads of the state `st`; `before` are the states before it, `rest` those
after it, `done` the threads before. -/
def computeThreads (before : List (List Nat)) (st : List Nat) (rest : List (List Nat)) : (done : List Nat) → List Nat → Nat → Nat
  | _, [], n => n
  | done, c :: cs, n =>
    let found := before.any (fun o => o.contains c) || done.contains c
    computeThreads before st rest (done ++ [c]) cs (if found then n else n + largest c (st :: rest))

/-- `FastScheduler.cpp:217-253`: the loop over the states. -/
def computeStates : (before : List (List Nat)) → List (List Nat) → Nat → Nat
  | _, [], n => n
  | before, st :: rest, n => computeStates (before ++ [st]) rest (computeThreads before st rest [] st n)

/-- `FastScheduler.cpp:215-254` `ComputeMaxNThreads`, which adds to `maxNThreads`. -/
def computeMax (states : List (List Nat)) (maxNThreads : Nat) : Nat := computeStates [] states maxNThreads

/-- `cpuMap`, `cpuThreadMap` and the masks of the threads of the pool (`none`: not set). -/
structure Map where
  rows : Nat → Nat → Nat
  slot : Nat → Nat → Nat
  mask : Nat → Option Nat

/-- `FastScheduler.cpp:310-315` -/
def empty : Map := ⟨fun _ _ => allCpus, fun _ _ => 0, fun _ => none⟩

/-- `FastScheduler.cpp:268-279`: the loop over the states before, at one place: `found` and `allInvalids`. -/
def column (cpu : Nat) : List Nat → (allInvalids : Bool) → Bool × Bool
  | [], a => (false, a)
  | x :: xs, _ => if x = cpu then (true, decide (x = allCpus)) else column cpu xs (decide (x = allCpus))

/-- `FastScheduler.cpp:266-286`: the loop over the places; the place and whether it was found in a state before, or
`firstInvalid`. -/
def place (rows : Nat → Nat → Nat) (state cpu : Nat) : List Nat → (firstInvalid : Option Nat) → Option Nat × Bool
  | [], first => (first, false)
  | h :: hs, first =>
    if rows state h = allCpus then
      let r := column cpu ((List.range state).map fun k => rows k h) false
      if r.1 then (some h, true)
      else place rows state cpu hs (if (r.2 || state == 0) && first.isNone then some h else first)
    else place rows state cpu hs first

def set2 (f : Nat → Nat → Nat) (i j v : Nat) : Nat → Nat → Nat := fun a b => if a = i ∧ b = j then v else f a b

/-- `FastScheduler.cpp:258-295` `CreateThreadMap`; `none`: `cpuMap` is written at `0xFFFFFFFF`. -/
def createThreadMap (maxNThreads cpu state thread : Nat) (m : Map) : Option Map :=
  match place m.rows state cpu (List.range maxNThreads) none with
  | (some h, true) => some { m with rows := set2 m.rows state h cpu, slot := set2 m.slot state thread h }
  | (some h, false) =>
    some ⟨set2 m.rows state h cpu, set2 m.slot state thread h, fun i => if i = h then some cpu else m.mask i⟩
  | (none, _) => none

/-- `FastScheduler.cpp:324-328`: the loop over the threads of a state. -/
def setupThreads (maxNThreads state : Nat) : (cpus : List Nat) → (thread : Nat) → Map → Option Map
  | [], _, m => some m
  | c :: cs, t, m => (createThreadMap maxNThreads c state t m).bind (setupThreads maxNThreads state cs (t + 1))

/-- `FastScheduler.cpp:321-329`: the loop over the states. -/
def setupStates (maxNThreads : Nat) : List (List Nat) → (state : Nat) → Map → Option Map
  | [], _, m => some m
  | st :: rest, s, m => (setupThreads maxNThreads s st 0 m).bind (setupStates maxNThreads rest (s + 1))

/-- `FastScheduler.cpp:297-341` `SetupThreadMap`, with `maxNThreads` as it was before: what it becomes, and the maps. -/
def setup (states : List (List Nat)) (maxNThreads : Nat) : Option (Nat × Map) :=
  (setupStates (computeMax states maxNThreads) states 0 empty).map fun m => (computeMax states maxNThreads, m)

/-- `FastScheduler.cpp:360-377`, of `CustomPrepareNextState`: what each thread of the pool is to execute. -/
def prepare {α : Type} (slot : Nat → Nat) : (threads : List α) → (i : Nat) → (info : Nat → Option α) → Nat → Option α
  | [], _, info => info
  | t :: ts, i, info => prepare slot ts (i + 1) fun j => if j = slot i then some t else info j

/-- Lines 360-365: nothing. -/
def noThreads {α : Type} : Nat → Option α := fun _ => none

end Verif.FastSched
