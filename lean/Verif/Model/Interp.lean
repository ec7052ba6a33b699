import Verif.Model.FloatInt
/-!
# Model of `MemoryMapInterpolatedInputBroker`

`MemoryMapInterpolatedInputBroker.cpp` and `.h`, for one copy with elements of an integer type; the copies do not depend
on each other.  The data source is the list of the samples that it gives, by position: the value of the x-axis and the
elements; `none`: `Synchronise` fails.  The x-axis is set.  Not modelled: elements of floating point type.
-/
namespace Verif.Interp
open Verif.FloatNum (Flt f64 ofInt add mul div truncInt)

/-- The type of the elements. -/
structure Ty where
  signed : Bool
  bits : Nat
deriving DecidableEq

/-- The least value of a type. -/
def Ty.min (ty : Ty) : Int := if ty.signed then -2 ^ (ty.bits - 1) else 0
/-- The greatest value of a type. -/
def Ty.max (ty : Ty) : Int := if ty.signed then 2 ^ (ty.bits - 1) - 1 else 2 ^ ty.bits - 1

/-- A data source: the x-axis and the elements at each position. -/
abbrev Source := Nat → Option (Nat × List Int)

/-- `MemoryMapInterpolatedInputBroker.h:125-171`: the members of the broker, for one copy, and the position of the data
source. -/
structure S where
  x0 : Nat
  x1 : Nat
  interpolatedX : Nat
  y0 : List Int
  y1 : List Int
  m : Flt
  reset : Bool
  pos : Nat

/-- `MemoryMapInterpolatedInputBroker.h:230` `y1v - y0v`: types of less than 32 bits are promoted; an unsigned
difference wraps; `none`: overflow of a signed one, which is undefined. -/
def diff (ty : Ty) (y1 y0 : Int) : Option Int :=
  if ty.bits < 32 then some (y1 - y0)
  else if ty.signed then (if ty.min ≤ y1 - y0 ∧ y1 - y0 ≤ ty.max then some (y1 - y0) else none)
  else some ((y1 - y0) % 2 ^ ty.bits)

/-- `MemoryMapInterpolatedInputBroker.h:206-233` `ChangeInterpolationSegment`: the elements one after the other; `m` is
the one of the copy. -/
def slopes (ty : Ty) (dx : Nat) : (y0 y1 : List Int) → (m : Flt) → Option Flt
  | a :: y0, b :: y1, _ => (diff ty b a).bind fun d => slopes ty dx y0 y1 (div f64 (ofInt f64 d) (ofInt f64 dx))
  | _, _, m => some m

/-- A difference of `uint64`. -/
def sub64 (a b : Nat) : Nat := (a + 2 ^ 64 - b) % 2 ^ 64

/-- `MemoryMapInterpolatedInputBroker.cpp:117-166` `ChangeInterpolationSegments`. -/
def changeSegments (ty : Ty) (x : Nat) (values : List Int) (s : S) : Option S :=
  let dt := if x = s.x1 then 1 else sub64 x s.x1
  (slopes ty dt s.y1 values s.m).map fun m => { s with x0 := s.x1, x1 := x, y0 := s.y1, y1 := values, m := m }

/-- `MemoryMapInterpolatedInputBroker.cpp:168-175` `Reset`; `none`: undefined, or there is no sample. -/
def reset (ty : Ty) (src : Source) (s : S) : Option S :=
  (src s.pos).bind fun v =>
    (changeSegments ty v.1 v.2 s).map fun s => { s with interpolatedX := v.1, reset := true }

/-- `MemoryMapInterpolatedInputBroker.cpp:197-212`: the loop on `Synchronise`: the answer, the position and
`triggerChange`; `none`: out of fuel. -/
def advance (src : Source) (t : Nat) : Nat → (pos x : Nat) → (trigger : Bool) → Option (Bool × Nat × Bool)
  | 0, _, _, _ => none
  | fuel + 1, pos, x, trigger =>
    if t > x then
      match src (pos + 1) with
      | none => some (false, pos, true)
      | some v => if x = v.1 then some (false, pos + 1, true) else advance src t fuel (pos + 1) v.1 true
    else some (true, pos, trigger)

/-- `MemoryMapInterpolatedInputBroker.h:181-204` `Interpolate`; `none`: undefined. -/
def interpolate (ty : Ty) (c : Nat) (m : Flt) : (y0 : List Int) → Option (List Int)
  | [] => some []
  | y :: y0 =>
    (truncInt f64 ty.min ty.max (add f64 (ofInt f64 y) (mul f64 m (ofInt f64 c)))).bind fun v =>
      (interpolate ty c m y0).map (v :: ·)

/-- `MemoryMapInterpolatedInputBroker.cpp:178-251` `Execute`: the answer, what is written in the memory of the GAM (if
anything) and the broker; the outer `none`: undefined or out of fuel. -/
def execute (ty : Ty) (src : Source) (period fuel : Nat) (s : S) : Option (Bool × Option (List Int) × S) :=
  (src s.pos).bind fun v =>
    if s.reset then some (true, some v.2, { s with reset := false })
    else
      let t := (s.interpolatedX + period) % 2 ^ 64
      (advance src t fuel s.pos v.1 false).bind fun r =>
        let s := { s with interpolatedX := t, pos := r.2.1 }
        if r.1 then
          (if r.2.2 then (src s.pos).bind fun v => changeSegments ty v.1 v.2 s else some s).bind fun s =>
            (interpolate ty (sub64 t s.x0) s.m s.y0).map fun out => (true, some out, s)
        else some (false, none, s)

/-- `Execute`, `k + 1` times: the result of the last one. -/
def executes (ty : Ty) (src : Source) (period fuel : Nat) : Nat → S → Option (Bool × Option (List Int) × S)
  | 0, s => execute ty src period fuel s
  | k + 1, s => (executes ty src period fuel k s).bind fun r => execute ty src period fuel r.2.2

end Verif.Interp
