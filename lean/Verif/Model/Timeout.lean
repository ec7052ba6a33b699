/-!
# Model of `BareMetal/L1Portability/TimeoutType.h`

`msecTimeout` is a `uint32` and `usecTimeout` a `uint64`; both are naturals here and the places where
the C++ conversion truncates carry an explicit `%`.  `SetTimeoutSec`, `SetTimeoutHighResolutionTimerTicks`
and `HighResolutionTimerTicks` (floating point) are not modelled.
-/
namespace Verif.Timeout

/-- `TimeoutType.h:163-167` the two members. -/
structure TimeoutType where
  msec : Nat
  usec : Nat
deriving DecidableEq, Repr

/-- `TimeoutType.h:204-213` constructor from `int32` milliseconds. -/
def ofInt32 (m : Int) : TimeoutType :=
  if m < 0 then ⟨0, 0⟩ else ⟨m.toNat % 2 ^ 32, (m.toNat % 2 ^ 32) * 1000 % 2 ^ 64⟩

/-- `TimeoutType.h:214-217` constructor from `uint32` milliseconds. -/
def ofUInt32 (m : Nat) : TimeoutType := ⟨m, m * 1000 % 2 ^ 64⟩

/-- `TimeoutType.h:219-227` constructor from `uint64` microseconds. -/
def ofUInt64 (u : Nat) : TimeoutType :=
  ⟨if u / 1000 > 0xFFFFFFFF then 0xFFFFFFFF else (u / 1000) % 2 ^ 32, u⟩

/-- `TimeoutType.h:253-264` `operator-=(const uint32 &mSecs)`. -/
def subMsec (t : TimeoutType) (m : Nat) : TimeoutType :=
  let aux := m * 1000 % 2 ^ 64
  if t.usec > aux then
    let u := t.usec - aux
    ⟨(u / 1000) % 2 ^ 32, u⟩
  else ⟨0, 0⟩

/-- `TimeoutType.h:266-281` `operator-=(const uint64 &uSecs)`. -/
def subUsec (t : TimeoutType) (us : Nat) : TimeoutType :=
  if t.usec > us then
    let u := t.usec - us
    ⟨if u / 1000 > 0xFFFFFFFF then 0xFFFFFFFF else (u / 1000) % 2 ^ 32, u⟩
  else ⟨0, 0⟩

/-- `TimeoutType.h:301-303` `IsFinite`. -/
def isFinite (t : TimeoutType) : Bool := t.msec < 0xFFFFFFFE

/-- `TimeoutType.h:283-286` `operator==`. -/
def eq (a b : TimeoutType) : Bool := a.usec == b.usec

/-- `TimeoutType.h:173-194` the named constants. -/
def ttNoWait := ofUInt32 0
def ttInfiniteWait := ofUInt32 0xFFFFFFFF
def ttDefault := ofUInt32 0xFFFFFFFE
def ttInfiniteWait64 := ofUInt64 0xFFFFFFFFFFFFFFFF

end Verif.Timeout
