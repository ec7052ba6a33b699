import Verif.Model.CStrings
/-!
# Model of the conversions to and from texts (`BareMetal/L4Configuration/TypeConversion.cpp`)

Memory is as in `Model/CStrings.lean`: a pointer is the list of the bytes from it to the end of its memory, a read or a write after the end is
`none`.  `StringHelper` is the version of the C library (`StringHelper_CLIB_Generic.cpp`).  The texts of integers and floats are those
of C65-C67, C78 and are not printed here: `textTo` starts from the printed text.
-/
namespace Verif.TextConvert
open Verif.CStrings (length strcpy compareNoCaseN)

/-- `strncpy` of the C library, that `StringHelper_CLIB_Generic.cpp:182` calls (ISO C 7.24.2.4); `ended`: the end of the source has been met. -/
def strncpy : (n : Nat) → (ended : Bool) → (dst src : List Nat) → Option (List Nat)
  | 0, _, dst, _ => some dst
  | _ + 1, _, [], _ => none
  | n + 1, true, _ :: dst, src => (strncpy n true dst src).map (0 :: ·)
  | _ + 1, false, _ :: _, [] => none
  | n + 1, false, _ :: dst, c :: src => (strncpy n (c == 0) dst src).map (c :: ·)

/-- `TypeConversion.cpp:479-493` (texts), `157-177` (integers), `300-317` (floats), `387-406` (booleans): a text to an array of `dst.length`
characters; the returned flag is always true. -/
def toArray (dst token : List Nat) : Option (List Nat) :=
  (length token).bind fun tokenLength =>
  let arraySize := dst.length
  if tokenLength ≥ arraySize then
    (strncpy arraySize false dst token).map fun d => if arraySize > 1 then d.set (arraySize - 1) 0 else d
  else strcpy dst token

/-- `TypeConversion.cpp:494-496` (and `178-183`, `318-323`, `407-416`): a text to a `char *`; the size of its memory is not known. -/
def toPointer (dst token : List Nat) : Option (List Nat) := strcpy dst token

/-- A `StreamString`: its bytes and its position (C13, C30). -/
structure Str where
  bytes : List Nat
  pos : Nat
  deriving DecidableEq, Repr

/-- `StreamString::Write` (C30): from the position, over what is there. -/
def Str.write (s : Str) (bs : List Nat) : Str :=
  ⟨s.bytes.take s.pos ++ bs ++ s.bytes.drop (s.pos + bs.length), s.pos + bs.length⟩

/-- `TypeConversion.cpp:475-478`: a text to a `StreamString`. -/
def toStream (s : Str) (token : List Nat) : Option Str := (length token).map fun n => s.write (token.take n)

/-- `TypeConversion.cpp:1006-1011`: a `StreamString` to a `StreamString`. -/
def streamToStream (s source : Str) : Str := s.write source.bytes

/-- `TypeConversion.cpp:504-505` with `506`: the texts for true, with the end that they have in memory, and their lengths. -/
def trueValues : List (List Nat × Nat) := [([116, 114, 117, 101, 0], 4), ([49, 0], 1), ([121, 101, 115, 0], 3)]

/-- `TypeConversion.cpp:507-514`: the loop. -/
def boolLoop (token : List Nat) : List (List Nat × Nat) → Option Bool
  | [] => some false
  | (v, n) :: vs =>
    (length token).bind fun lenToken =>
    if lenToken = n then (compareNoCaseN n token v).bind fun r => if r = 0 then some true else boolLoop token vs
    else boolLoop token vs

/-- `TypeConversion.cpp:502-519`: a text to a boolean; the returned flag is always true. -/
def toBool (token : List Nat) : Option Bool := boolLoop token trueValues

/-- `TypeConversion.cpp:379-384`, `389-394`, `409-414`: the text of a boolean, with its end. -/
def boolText (b : Bool) : List Nat := if b then [116, 114, 117, 101, 0] else [102, 97, 108, 115, 101, 0]

/-- `MemoryOperationsHelper::Copy` (`memcpy`). -/
def memcpy : (n : Nat) → (dst src : List Nat) → Option (List Nat)
  | 0, dst, _ => some dst
  | n + 1, _ :: dst, c :: src => (memcpy n dst src).map (c :: ·)
  | _ + 1, _, _ => none

/-- `TypeConversion.cpp:1015-1021` with `1442-1487`: an array of characters to an array of characters.  The two are of the same type and, without
their last dimension, scalars; their sizes are not compared, and the size of the source is copied. -/
def arrayToArray (dst src : List Nat) : Option (List Nat) := memcpy src.length dst src

end Verif.TextConvert
