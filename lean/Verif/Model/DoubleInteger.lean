/-!
# Model of `BareMetal/L0Types/DoubleInteger.h` and of the shifts of `BareMetal/L0Types/Shift.h`

A `DoubleInteger<T>` is two halves of the integer type `T`.  A value of `T` is a bit vector of the width `n` of `T`;
`T` is signed or not, and the operators `<`, `>` and `>>` of `T` depend on it.  Additions, subtractions and left
shifts of `T` are those of the bits (two's complement; the C++ standard leaves the overflow of a signed type
undefined).  A shift by `n` or more is undefined for `T`; it does not happen here except with a zero width.
-/
namespace Verif.DoubleInteger

/-- `DoubleInteger.h:58-270` The two halves (`lower` is the first in memory). -/
structure Dbl (n : Nat) where
  lower : BitVec n
  upper : BitVec n
deriving DecidableEq, Repr

/-- `a < b` of the type `T`. -/
def tlt (s : Bool) {n : Nat} (a b : BitVec n) : Bool := if s then a.slt b else a.ult b
/-- `a >> k` of the type `T` (arithmetic if it is signed). -/
def tshr (s : Bool) {n : Nat} (a : BitVec n) (k : Nat) : BitVec n := if s then a.sshiftRight k else a >>> k

/-- `DoubleInteger.h:281-312` The constructor from a number of the type `T2`, of width `m`, signed or not. -/
def ofT (n : Nat) (s2 : Bool) {m : Nat} (x : BitVec m) : Dbl n :=
  if x = 0 then ⟨0, 0⟩
  else if tlt s2 0 x then
    if m > n then ⟨x.setWidth n, (tshr s2 x n).setWidth n⟩ else ⟨x.setWidth n, 0⟩
  else
    if m > n then ⟨x.setWidth n, (tshr s2 x n).setWidth n⟩
    else ⟨x.signExtend n, BitVec.allOnes n⟩

/-- `DoubleInteger.h:314-341` `operator<<=`. -/
def shlAssign (s : Bool) {n : Nat} (d : Dbl n) (shift : Nat) : Dbl n :=
  if shift > 0 then
    if shift < n then
      ⟨d.lower <<< shift, (d.upper <<< shift) ||| tshr s d.lower (n - shift)⟩
    else ⟨0, d.lower <<< (shift - n)⟩
  else d

/-- `DoubleInteger.h:343-375` `operator>>=`. -/
def shrAssign (s : Bool) {n : Nat} (d : Dbl n) (shift : Nat) : Dbl n :=
  if shift > 0 then
    if shift < n then
      ⟨tshr s d.lower shift ||| (d.upper <<< (n - shift)), tshr s d.upper shift⟩
    else
      ⟨tshr s d.upper (shift - n), if tlt s d.upper 0 then BitVec.allOnes n else 0⟩
  else d

/-- `DoubleInteger.h:416-421` `operator~`. -/
def not {n : Nat} (d : Dbl n) : Dbl n := ⟨~~~d.lower, ~~~d.upper⟩
/-- `DoubleInteger.h:394-397,424-429` `operator&` and `operator&=`. -/
def and {n : Nat} (d e : Dbl n) : Dbl n := ⟨d.lower &&& e.lower, d.upper &&& e.upper⟩
/-- `DoubleInteger.h:400-403,432-437` `operator|` and `operator|=`. -/
def or {n : Nat} (d e : Dbl n) : Dbl n := ⟨d.lower ||| e.lower, d.upper ||| e.upper⟩
/-- `DoubleInteger.h:406-408` `operator!=`. -/
def ne {n : Nat} (d e : Dbl n) : Bool := d.upper ≠ e.upper || d.lower ≠ e.lower
/-- `DoubleInteger.h:411-413` `operator==`. -/
def eq {n : Nat} (d e : Dbl n) : Bool := !ne d e

/-- `DoubleInteger.h:440-471` `operator-`. -/
def sub (s : Bool) {n : Nat} (d e : Dbl n) : Dbl n :=
  let up := d.upper - e.upper
  let lo := d.lower - e.lower
  let case1 := s && (!tlt s d.lower 0 && tlt s e.lower 0)
  let case2 := s && (tlt s d.lower 0 && !tlt s e.lower 0)
  let up := if case1 then up - 1 else up
  let canReturn := case1 || case2
  if !canReturn then
    if tlt s d.lower e.lower then ⟨lo, up - 1⟩ else ⟨lo, up⟩
  else ⟨lo, up⟩

/-- `DoubleInteger.h:474-501` `operator+`. -/
def add (s : Bool) {n : Nat} (d e : Dbl n) : Dbl n :=
  let up := d.upper + e.upper
  let lo := d.lower + e.lower
  let canReturn := s && (tlt s d.lower 0 && tlt s e.lower 0)
  let up := if canReturn then up + 1 else up
  if !canReturn then
    if (tlt s lo d.lower || tlt s lo e.lower) && !tlt s lo 0 then ⟨lo, up + 1⟩ else ⟨lo, up⟩
  else ⟨lo, up⟩

/-- `DoubleInteger.h:504-532` `operator>`. -/
def gt (s : Bool) {n : Nat} (d e : Dbl n) : Bool :=
  if d.upper = e.upper then
    if s && (tlt s d.lower 0 && !tlt s e.lower 0) then true
    else if s && (!tlt s d.lower 0 && tlt s e.lower 0) then false
    else tlt s e.lower d.lower
  else tlt s e.upper d.upper

/-- `DoubleInteger.h:535-538` `operator<`. -/
def lt (s : Bool) {n : Nat} (d e : Dbl n) : Bool := !gt s d e && ne d e
/-- `DoubleInteger.h:541-544` `operator>=`. -/
def ge (s : Bool) {n : Nat} (d e : Dbl n) : Bool := !lt s d e
/-- `DoubleInteger.h:547-550` `operator<=`. -/
def le (s : Bool) {n : Nat} (d e : Dbl n) : Bool := !gt s d e

/-- `Shift.h:281-326` `LogicalRightShift` of a `DoubleInteger`. -/
def logicalShr (s : Bool) {n : Nat} (d : Dbl n) (shift : Nat) : Dbl n :=
  if s then
    if shift > 0 then
      if shift < n then
        ⟨tshr s d.lower shift ||| (d.upper <<< (n - shift)), tshr s d.upper shift⟩
      else
        ⟨tshr s d.upper (shift - n), if tlt s d.upper 0 then BitVec.allOnes n else 0⟩
    else d
  else shrAssign s d shift

/-- `Shift.h:187-199` `LogicalRightSafeShift`: the shift is a `uint8`. -/
def logicalShrSafe (s : Bool) {n : Nat} (d : Dbl n) (shift : Nat) : Dbl n :=
  if shift ≥ 2 * n then ⟨0, 0⟩ else logicalShr s d shift
/-- `Shift.h:201-213` `LogicalLeftSafeShift`. -/
def shlSafe (s : Bool) {n : Nat} (d : Dbl n) (shift : Nat) : Dbl n :=
  if shift ≥ 2 * n then ⟨0, 0⟩ else shlAssign s d shift

end Verif.DoubleInteger
