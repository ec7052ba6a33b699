/-!
# Model of the resolution of the states of a real-time application

`BareMetal/L5GAMs/RealTimeApplicationConfigurationBuilder.cpp`: `ResolveStates` (with `ConfigureThreads` and
`GetNumberOfSyncSignals`), and `RealTimeThread.cpp`: `ConfigureArchitecture`.

Simplifications.  Functions are a tree of names (objects below `Functions`), each with a mark if it is a GAM and the number of its
signals with a frequency; a function is found by its path, so that `FindFunctionNumber` and the qualified name of lines 1548-1568
are the path.  The nodes `States` of the functions are a map from function and state to the names of the threads.  The counter of
synchronising signals is a natural number.  The cycle time signals (`AddThreadCycleTime`) and the objects with state
(`RealTimeState::AddStatefuls`) are not modelled here.
-/
namespace Verif.AppStates

abbrev Path := List String

/-- The objects of a container, one after the other: name, whether it is a GAM, its synchronising signals
(`GetNumberOfSyncSignals`, lines 3812-3836, for inputs and outputs), what it contains. -/
inductive Forest
  | nil
  | cons (name : String) (gam : Bool) (sync : Nat) (kids rest : Forest)

/-- A thread of a state: its name and the paths of its functions (`RealTimeThread.cpp:165-201`). -/
structure Thread where
  name : String
  functions : List Path
deriving DecidableEq, Repr

/-- A state: its name and the objects it contains, each with its name and, if it is a container, its elements (`none`: not a
thread). -/
structure State where
  name : String
  kids : List (String × Option (List (Option Thread)))
deriving DecidableEq, Repr

/-- What comes out: `crash` is the use of a null pointer. -/
inductive Outcome (α : Type)
  | ok (a : α)
  | refused
  | crash
deriving DecidableEq, Repr

/-- `ReferenceContainer::Find` with a path (`RealTimeThread.cpp:106-113`). -/
def find : Forest → Path → Option (Bool × Nat × Forest)
  | .nil, _ => none
  | .cons _ _ _ _ _, [] => none
  | .cons n g s k r, a :: p => if n = a then (if p = [] then some (g, s, k) else find k p) else find r (a :: p)

/-- `ReferenceContainerFilterReferencesTemplate<GAM>(-1, RECURSIVE)` (`RealTimeThread.cpp:121-123`): the GAMs inside. -/
def inside (pre : Path) : Forest → List (Path × Nat)
  | .nil => []
  | .cons n g s k r => (if g then [(pre ++ [n], s)] else []) ++ inside (pre ++ [n]) k ++ inside pre r

/-- `RealTimeThread.cpp:104-133`, one round: a function of a thread. -/
def gamsOf (fns : Forest) (p : Path) : Option (List (Path × Nat)) :=
  match find fns p with
  | none => none
  | some (g, s, k) => some ((if g then [(p, s)] else []) ++ inside p k)

/-- `RealTimeThread.cpp:67-163` `ConfigureArchitecture`. -/
def threadGams (fns : Forest) : List Path → Option (List (Path × Nat))
  | [] => some []
  | p :: ps =>
    match gamsOf fns p with
    | none => none
    | some a => (threadGams fns ps).map (a ++ ·)

/-- The nodes `States` of the functions: the threads of a function in a state. -/
abbrev Table := Path → String → List String

def put (tbl : Table) (g : Path) (s : String) (ts : List String) : Table :=
  fun g' s' => if g' = g ∧ s' = s then ts else tbl g' s'

/-- Lines 1592-1642: one function of a thread; `check` is `CheckSameGamInMoreThreads`. -/
def addThread (check : Bool) (s th : String) (g : Path) (tbl : Table) : Option Table :=
  if tbl g s = [] then some (put tbl g s [th])
  else if check then (if tbl g s = [th] then some tbl else none)
  else some (put tbl g s (tbl g s ++ [th]))

/-- Lines 1545-1644: the functions of a thread. -/
def addGams (check : Bool) (s th : String) : List (Path × Nat) → Table → Option Table
  | [], tbl => some tbl
  | (g, _) :: gs, tbl =>
    match addThread check s th g tbl with
    | none => none
    | some tbl => addGams check s th gs tbl

def syncs (gs : List (Path × Nat)) : Nat := (gs.map (·.2)).sum

/-- Lines 1522-1651: the threads of a state. -/
def resolveThreads (check : Bool) (fns : Forest) (s : String) : List (Option Thread) → Table → Outcome Table
  | [], tbl => .ok tbl
  | none :: _, _ => .refused
  | some t :: ts, tbl =>
    match threadGams fns t.functions with
    | none => .refused
    | some gs =>
      match addGams check s t.name gs tbl with
      | none => .refused
      | some tbl => if syncs gs ≤ 1 then resolveThreads check fns s ts tbl else .refused

/-- Lines 1508-1519: the container `Threads` among the first objects of the state, as many as the application has. -/
def threadsOf (appSize : Nat) (st : State) : Option (List (Option Thread)) :=
  ((st.kids.take appSize).find? fun k => k.1 = "Threads" && k.2.isSome).bind (·.2)

/-- Lines 1503-1656: the states. -/
def resolveStates (appSize : Nat) (check : Bool) (fns : Forest) : List State → Table → Outcome Table
  | [], tbl => .ok tbl
  | st :: sts, tbl =>
    match threadsOf appSize st with
    | none => .refused
    | some ts =>
      match resolveThreads check fns st.name ts tbl with
      | .ok tbl => resolveStates appSize check fns sts tbl
      | .refused => .refused
      | .crash => .crash

/-- Lines 3960-3966: the threads of a state are configured. -/
def configureThreads (fns : Forest) : List (Option Thread) → Outcome Unit
  | [] => .ok ()
  | none :: ts => configureThreads fns ts
  | some t :: ts =>
    match threadGams fns t.functions with
    | none => .refused
    | some _ => configureThreads fns ts

/-- Lines 3941-3972 `ConfigureThreads`: the object `Threads` of each state is used without a check (line 3960). -/
def configure (fns : Forest) : List State → Outcome Unit
  | [] => .ok ()
  | st :: sts =>
    match (st.kids.find? fun k => k.1 = "Threads").bind (·.2) with
    | none => .crash
    | some ts =>
      match configureThreads fns ts with
      | .ok _ => configure fns sts
      | .refused => .refused
      | .crash => .crash

/-- Lines 1493-1661 `ResolveStates`. -/
def resolve (appSize : Nat) (check : Bool) (fns : Forest) (states : List State) : Outcome Table :=
  match configure fns states with
  | .ok _ => resolveStates appSize check fns states fun _ _ => []
  | .refused => .refused
  | .crash => .crash

end Verif.AppStates
