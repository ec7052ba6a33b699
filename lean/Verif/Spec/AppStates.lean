import Verif.Model.AppStates
/-!
# Which thread executes which function
-/
namespace Verif.Spec.AppStates
open Verif.AppStates (Path Forest Thread State)

/-- The paths of all the objects. -/
def paths : Forest → List Path
  | .nil => []
  | .cons n _ _ k r => [n] :: (paths k).map (n :: ·) ++ paths r

/-- The GAMs: path and number of synchronising signals. -/
def gams : Forest → List (Path × Nat)
  | .nil => []
  | .cons n g s k r => (if g then [([n], s)] else []) ++ (gams k).map (fun x => (n :: x.1, x.2)) ++ gams r

def roots : Forest → List String
  | .nil => []
  | .cons n _ _ _ r => n :: roots r

/-- Objects of the same container have different names. -/
def Distinct : Forest → Prop
  | .nil => True
  | .cons n _ _ k r => n ∉ roots r ∧ Distinct k ∧ Distinct r

/-- What a thread executes: for each of its functions, the GAMs at that path and below it. -/
def executes (fns : Forest) (t : Thread) : List (Path × Nat) :=
  t.functions.flatMap fun p => (gams fns).filter fun x => p.isPrefixOf x.1

/-- The threads of a state. -/
def threads (st : State) : List Thread :=
  (st.kids.filter fun k => k.1 = "Threads").flatMap fun k => (k.2.getD []).filterMap id

/-- The threads, by name, that execute a function in a state: one for each time. -/
def executors (fns : Forest) (st : State) (g : Path) : List String :=
  (threads st).flatMap fun t => ((executes fns t).filter fun x => x.1 = g).map fun _ => t.name

/-- The state has one container `Threads`, which contains only threads, among its first objects. -/
def WellFormed (n : Nat) (st : State) : Prop :=
  ∃ (before : List (String × Option (List (Option Thread)))) (ts : List Thread) (after : List (String × Option (List (Option Thread)))),
    st.kids = before ++ ("Threads", some (ts.map some)) :: after ∧ before.length < n ∧
    (∀ k ∈ before, k.1 ≠ "Threads") ∧ (∀ k ∈ after, k.1 ≠ "Threads")

/-- All functions of the threads exist and no thread waits for more than one signal. -/
def Sound (fns : Forest) (st : State) : Prop :=
  ∀ t ∈ threads st, (∀ p ∈ t.functions, p ∈ paths fns) ∧ ((executes fns t).map (·.2)).sum ≤ 1

/-- No function is executed by two threads of the state. -/
def Exclusive (fns : Forest) (st : State) : Prop :=
  ∀ g, ∀ a ∈ executors fns st g, ∀ b ∈ executors fns st g, a = b

end Verif.Spec.AppStates
