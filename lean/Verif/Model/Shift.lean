/-!
# Model of the shifts that are safe for any amount

`BareMetal/L0Types/Shift.h`.  An integer of `w` bits is a `BitVec w`; whether it is signed is a parameter where it matters.  A left shift
of a negative number is the one of the compiler (the bits are shifted).  Integers of 256 bits or more, for which the bound (`uint8`)
would be zero, are not modelled; the unsigned `DoubleInteger` uses `operator>>=`, which is in `Model/DoubleInteger.lean`.
-/
namespace Verif.Shift

/-- `Shift.h:187-199` `LogicalRightSafeShift`, with 241-279 `LogicalRightShift`: signed numbers are cast to unsigned. -/
def logicalRight {w : Nat} (x : BitVec w) (s : Nat) : BitVec w := if w ≤ s then 0 else x >>> s

/-- `Shift.h:201-213` `LogicalLeftSafeShift`. -/
def logicalLeft {w : Nat} (x : BitVec w) (s : Nat) : BitVec w := if w ≤ s then 0 else x <<< s

/-- `Shift.h:215-226` `MathematicRightSafeShift`: `>>` of the type. -/
def mathRight {w : Nat} (signed : Bool) (x : BitVec w) (s : Nat) : BitVec w :=
  if w ≤ s then 0 else if signed then x.sshiftRight s else x >>> s

/-- `Shift.h:228-239` `MathematicLeftSafeShift`. -/
def mathLeft {w : Nat} (x : BitVec w) (s : Nat) : BitVec w := if w ≤ s then 0 else x <<< s

/-- `Shift.h:281-326` `LogicalRightShift` of a `DoubleInteger` of two signed halves; upper and lower half. -/
def doubleRight {w : Nat} (upper lower : BitVec w) (s : Nat) : BitVec w × BitVec w :=
  if 0 < s then
    if s < w then (upper.sshiftRight s, lower.sshiftRight s ||| (upper <<< (w - s)))
    else (if upper.toInt < 0 then BitVec.allOnes w else 0, upper.sshiftRight (s - w))
  else (upper, lower)

/-- `Shift.h:187-199` `LogicalRightSafeShift` of a `DoubleInteger` of two signed halves. -/
def doubleSafeRight {w : Nat} (upper lower : BitVec w) (s : Nat) : BitVec w × BitVec w :=
  if 2 * w ≤ s then (0, 0) else doubleRight upper lower s

end Verif.Shift
