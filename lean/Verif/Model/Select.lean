/-!
# Model of the waiting for handles

`FileSystem/L1Portability/Environment/Linux/Select.cpp`.  A set of descriptors of the operating system has 1024 of them; the access to any other one is outside
of its memory and is `none`.  The call `select` of the operating system is given: it answers a number and, when this is not negative, clears the descriptors
that are not ready.
-/
namespace Verif.Select

/-- The three sets of `Select.h:175-185`. -/
inductive Mode where
  | read
  | write
  | exception
deriving DecidableEq, Repr

/-- `HandleI.h`: the answers of `GetReadHandle` and `GetWriteHandle`. -/
structure Handle where
  read : Int
  write : Int

abbrev Sets := Mode → Nat → Bool

/-- `Select.h:175-190`. -/
structure State where
  sets : Sets
  highest : Int

/-- What is given to `select`: one more than the highest descriptor, the sets, and the seconds and microseconds, if any. -/
structure Call where
  limit : Int
  sets : Sets
  time : Option (Int × Int)

/-- What a program does with the object; `none` is the infinite timeout, the others are in microseconds.  The answer
of the operating system, if it is asked, and the descriptors that are ready come with the wait. -/
inductive Op where
  | add (m : Mode) (h : Handle)
  | remove (m : Mode) (h : Handle)
  | clear
  | isSet (h : Handle)
  | wait (timeout : Option Nat) (answer : Int) (ready : Sets)

inductive Result where
  | done
  | bool (b : Bool)
  | number (n : Int) (asked : Option Call)

/-- `FD_SETSIZE`. -/
def setSize : Int := 1024

def put (sets : Sets) (m : Mode) (d : Nat) (b : Bool) : Sets := fun m' x => if m' = m ∧ x = d then b else sets m' x

/-- `Select.cpp:49-72`. -/
def init : State := { sets := fun _ _ => false, highest := -1 }

/-- `Select.cpp:81-100`, `107-126`, `133-152` and `155-175`: one descriptor. -/
def add1 (m : Mode) (d : Int) (s : State) : Option (State × Bool) :=
  if 0 ≤ d then
    if setSize ≤ d then none
    else if s.sets m d.toNat then some (s, false)
    else some ({ sets := put s.sets m d.toNat true, highest := if d > s.highest then d else s.highest }, true)
  else some (s, false)

/-- `Select.cpp:183-200`, `207-224`, `231-248` and `251-270`: one descriptor. -/
def remove1 (m : Mode) (d : Int) (s : State) : Option (State × Bool) :=
  if 0 ≤ d then
    if setSize ≤ d then none
    else if s.sets m d.toNat then some ({ s with sets := put s.sets m d.toNat false }, true)
    else some (s, false)
  else some (s, false)

/-- `Select.cpp:130-178` and `228-272`: the exceptions use both descriptors of the handle. -/
def both (f : Int → State → Option (State × Bool)) (h : Handle) (s : State) : Option (State × Bool) :=
  match f h.read s with
  | none => none
  | some (s1, r1) =>
    if h.read ≠ h.write then
      match f h.write s1 with
      | none => none
      | some (s2, r2) => some (s2, r1 && r2)
    else some (s1, r1)

/-- `Select.cpp:77-178`. -/
def add (m : Mode) (h : Handle) (s : State) : Option (State × Bool) :=
  match m with
  | .read => add1 .read h.read s
  | .write => add1 .write h.write s
  | .exception => both (add1 .exception) h s

/-- `Select.cpp:180-272`. -/
def remove (m : Mode) (h : Handle) (s : State) : Option (State × Bool) :=
  match m with
  | .read => remove1 .read h.read s
  | .write => remove1 .write h.write s
  | .exception => both (remove1 .exception) h s

/-- `Select.cpp:274-298`. -/
def clear : State := { sets := fun _ _ => false, highest := 0 }

/-- The descriptor is in one of the three sets. -/
def anySet (sets : Sets) (d : Nat) : Bool := sets .read d || sets .write d || sets .exception d

/-- `Select.cpp:300-347`; the descriptor is not tested before it is used. -/
def isSet (h : Handle) (s : State) : Option Bool :=
  if 0 ≤ h.read ∧ h.read < setSize then
    if anySet s.sets h.read.toNat then some true
    else if h.write ≠ h.read then
      if 0 ≤ h.write ∧ h.write < setSize then some (anySet s.sets h.write.toNat) else none
    else some false
  else none

/-- `Select.cpp:356-359`: `highestHandle` at the end of the loop, when it begins at `n - 1`, which is less than 1024. -/
def lower (sets : Sets) : Nat → Int
  | 0 => -1
  | n + 1 => if anySet sets n then n else lower sets n

/-- `static_cast<int32>`. -/
def int32 (n : Nat) : Int := if n % 4294967296 < 2147483648 then (n % 4294967296 : Nat) else (n % 4294967296 : Nat) - 4294967296

/-- `Select.cpp:366-370`: seconds and microseconds. -/
def time (usec : Nat) : Int × Int := (int32 (usec / 1000000), int32 (usec % 1000000))

/-- `Select.cpp:349-377`. -/
def wait (timeout : Option Nat) (answer : Int) (ready : Sets) (s : State) : State × Int × Option Call :=
  let hi := lower s.sets (s.highest + 1).toNat
  if hi < 0 then ({ s with highest := hi }, -1, none)
  else
    ({ sets := if answer < 0 then s.sets else fun m d => s.sets m d && ready m d, highest := hi }, answer,
      some { limit := hi + 1, sets := s.sets, time := timeout.map time })

def step (s : State) : Op → Option (State × Result)
  | .add m h => (add m h s).map fun r => (r.1, .bool r.2)
  | .remove m h => (remove m h s).map fun r => (r.1, .bool r.2)
  | .clear => some (clear, .done)
  | .isSet h => (isSet h s).map fun r => (s, .bool r)
  | .wait timeout answer ready => let r := wait timeout answer ready s; some (r.1, .number r.2.1 r.2.2)

def run (s : State) : List Op → Option State
  | [] => some s
  | op :: ops => match step s op with
    | none => none
    | some (s', _) => run s' ops

end Verif.Select
