/-!
# Model of the value of an error

`Source/Core/BareMetal/L0Types/ErrorType.h` and `BitBoolean.h`: 32 bits, one for each kind of error.
-/
namespace Verif.ErrorSet

abbrev Value := BitVec 32

/-- `BitBoolean.h:99`: the mask of a flag. -/
def mask (bit : Nat) : Value := BitVec.ofNat 32 1 <<< bit

/-- `BitBoolean.h:114-121`: a flag (`fatalError` and so on, `ErrorType.h:401-523`) is given a value. -/
def setFlag (bit : Nat) (flag : Bool) (v : Value) : Value := if flag then v ||| mask bit else v &&& ~~~ mask bit

/-- `BitBoolean.h:124-126` -/
def flag (bit : Nat) (v : Value) : Bool := v &&& mask bit ≠ 0

/-- `ErrorType.h:535-537` -/
def ofBits (b : Value) : Value := b

/-- `ErrorType.h:539-542`; the bit of `fatalError` is 0 (`:59`). -/
def ofBool (allOk : Bool) : Value := setFlag 0 (!allOk) 0

/-- `ErrorType.h:544-546` `ErrorsCleared` -/
def errorsCleared (v : Value) : Bool := v = 0

/-- `ErrorType.h:548-550` `operator bool` -/
def toBool (v : Value) : Bool := v = 0

/-- `ErrorType.h:564-567` `operator =` of an integer -/
def assign (b _v : Value) : Value := b

/-- `ErrorType.h:569-577` `operator =` of a boolean -/
def assignBool (error : Bool) (_v : Value) : Value := if error then 1 else 0

/-- `ErrorType.h:579-581` `SetError` -/
def setError (b v : Value) : Value := v ||| b

/-- `ErrorType.h:583-585` `ClearError` -/
def clearError (b v : Value) : Value := v &&& ~~~ b

/-- `ErrorType.h:587-589` `Contains` -/
def contains (b v : Value) : Bool := v &&& b = b

/-- `ErrorType.h:556-558` `operator ==` -/
def equal (b v : Value) : Bool := v = b

/-- What is done to a value. -/
inductive Op where
  | setFlag (bit : Nat) (flag : Bool)
  | assign (b : Value)
  | assignBool (error : Bool)
  | setError (b : Value)
  | clearError (b : Value)

/-- The value after an operation. -/
def step (v : Value) : Op → Value
  | .setFlag bit f => setFlag bit f v
  | .assign b => assign b v
  | .assignBool e => assignBool e v
  | .setError b => setError b v
  | .clearError b => clearError b v

/-- The value after a history. -/
def run (v : Value) (ops : List Op) : Value := ops.foldl step v

end Verif.ErrorSet
