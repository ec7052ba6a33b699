/-!
# Model of `BareMetal/L5GAMs/GAMBareScheduler.cpp`

The thread that executes `StartNextStateExecution` against the calls of `StopCurrentStateExecution` and `PrepareNextState`
that others make (another thread, or a function executed by the cycle itself).  `isAlive` and `nCycle` are read and written
as the source says, one access after the other.  What a cycle does is C34; the cycle time is not modelled.
-/
namespace Verif.BareSched

/-- Where the execution is: before line 65, at the test of line 70, at the cycle (71), after it (85-88), or at the end. -/
inductive PC where
  | start | test | cycle | count | done
deriving DecidableEq, Repr

/-- `GAMBareScheduler.h:108-138`: `isAlive`, `nCycle`, `maxCycles`, and the number of cycles executed. -/
structure S where
  alive : Bool
  n : Nat
  max : Nat
  pc : PC
  cycles : Nat
deriving DecidableEq, Repr

/-- What happens: a step of the execution, `StopCurrentStateExecution`, or `PrepareNextState`. -/
inductive Ev where
  | own | stop | prepare
deriving DecidableEq, Repr

/-- `GAMBareScheduler.cpp:64-92` `StartNextStateExecution`, step by step. -/
def own (s : S) : S :=
  match s.pc with
  | .start => { s with alive := true, pc := .test }
  | .test => { s with pc := if s.alive then .cycle else .done }
  | .cycle => { s with cycles := s.cycles + 1, pc := .count }
  | .count => if s.max ≠ 0 then { s with alive := decide (s.n < s.max), n := (s.n + 1) % 2 ^ 32, pc := .test } else { s with pc := .test }
  | .done => s

def step (s : S) : Ev → S
  | .own => own s
  -- `GAMBareScheduler.cpp:107-110` `StopCurrentStateExecution`
  | .stop => { s with alive := false }
  -- `GAMBareScheduler.cpp:103-105` `CustomPrepareNextState`
  | .prepare => { s with n := 0 }

def run (s : S) (es : List Ev) : S := es.foldl step s

/-- The scheduler (lines 45-49, 94-101) with `MaxCycles = max`, after `PrepareNextState`, when the execution starts. -/
def init (max : Nat) : S := ⟨false, 0, max, .start, 0⟩

end Verif.BareSched
