/-!
# Model of the database of the global objects

`Source/Core/BareMetal/L1Portability/GlobalObjectsDatabase.cpp`.  The two arrays are one list of pairs, an object (a number, `none` for `NULL`) and its order; `n` is
`NUMBER_OF_GLOBAL_OBJECTS` (64 on Linux, on Windows and without a system, 256 on FreeRTOS: `GeneralDefinitions.h` of each environment).
-/
namespace Verif.GlobalObjects

abbrev Table := List (Option Nat × Nat)

/-- `GlobalObjectsDatabase.cpp:53-57` -/
def init (n : Nat) : Table := List.replicate n (none, n)

/-- `GlobalObjectsDatabase.cpp:85-95` `Add` -/
def add (x order : Nat) : Table → Table
  | [] => []
  | (none, _) :: t => (some x, order) :: t
  | (some y, o) :: t => (some y, o) :: add x order t

/-- `GlobalObjectsDatabase.cpp:97-99` `Peek`; the inner `none`: it is `NULL`; the outer one: beyond the array. -/
def peek (t : Table) (i : Nat) : Option (Option Nat) := t[i]?.map (·.1)

/-- `GlobalObjectsDatabase.cpp:72-77`: the smallest order and where it is, from `i` on. -/
def scan : List Nat → Nat → Nat × Nat → Nat × Nat
  | [], _, b => b
  | o :: os, i, b => scan os (i + 1) (if b.1 > o then (o, i) else b)

/-- `GlobalObjectsDatabase.cpp:79`: the order of an entry is put to `n`. -/
def forget (n : Nat) : Nat → Table → Table
  | _, [] => []
  | 0, (x, _) :: t => (x, n) :: t
  | i + 1, e :: t => e :: forget n i t

/-- `GlobalObjectsDatabase.cpp:66-83`, the loop of the destructor: the objects in the order in which they are deleted; `none` when it goes on after so many
rounds. -/
def destroy (n : Nat) : Nat → Table → Option (List (Option Nat))
  | 0, _ => none
  | rounds + 1, t =>
    let r := scan (t.map (·.2)) 0 (n, 0)
    if r.1 ≠ n then (destroy n rounds (forget n r.2 t)).map (((t[r.2]?).bind (·.1)) :: ·)
    else some []

/-- The table after objects were added, each with its order. -/
def run (n : Nat) (adds : List (Nat × Nat)) : Table := adds.foldl (fun t a => add a.1 a.2 t) (init n)

end Verif.GlobalObjects
