import Verif.Model.PollEvent
/-! ## Specification: a barrier that is raised and lowered -/
namespace Verif.Spec.PollEvent
open Verif.PollEvent (Obs)

/-- If the barrier is up after one more event. -/
def next (up : Bool) : Obs → Bool
  | .created wait => !wait
  | .posted _ => true
  | .lowered _ => false
  | _ => up

def isUp (trace : List Obs) : Bool := trace.foldl next false

/-- Every wait that was passed was passed while the barrier was up, and every one that timed out had lasted longer than its
timeout, if its end was within the 64 bits of the counter. -/
def Ok (up : Bool) : List Obs → Prop
  | [] => True
  | o :: os =>
    (match o with
      | .passed _ => up = true
      | .timedOut _ start ticks now => start + ticks < 2 ^ 64 → start + ticks < now
      | _ => True) ∧ Ok (next up o) os

end Verif.Spec.PollEvent
