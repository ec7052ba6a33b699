import Verif.Model.ConfigPrint
import Verif.Model.IntRadix
import Verif.Model.FloatPrint
/-!
# Model of formatted printing

`BareMetal/L1Portability/FormatDescriptor.cpp` (the description of a field) and `BareMetal/L3Streams/IOBuffer.cpp`
(`PrintFormatted`, `PrintToStream`, `PrintToStreamVector`, `PrintToStreamMatrix`, `PrintToStreamScalar`, `PrintStream`).

Simplifications: the output stream takes all that is written to it; texts are lists of characters without zeros, and the end
of the list is the terminator; structures and configurations are not among the parameters; integers
have 8, 16, 32 or 64 bits.  Addresses have 64 bits.
-/
namespace Verif.Format
open Verif.IntText (IType Radix printDecimal printRadix)
open Verif.Config (printCCString sub32)

/-- `FormatDescriptor.h:290-370`: the fields of the 32 bits of a description. -/
structure FD where
  size : Nat
  precision : Nat
  padded : Bool
  leftAligned : Bool
  floatNotation : Nat
  binaryNotation : Nat
  binaryPadded : Bool
  fullNotation : Bool
  action : Nat
  grammar : Nat
deriving DecidableEq, Repr

/-- `FormatDescriptor.h:396-408`: the default description. -/
def FD.default : FD := ⟨0, 255, false, false, 0, 0, false, false, 0, 0⟩

/-- `format_as_uint32 |= …` (`FormatDescriptor.cpp:125`); the fields do not share bits. -/
def FD.or (a b : FD) : FD :=
  ⟨a.size ||| b.size, a.precision ||| b.precision, a.padded || b.padded, a.leftAligned || b.leftAligned,
   a.floatNotation ||| b.floatNotation, a.binaryNotation ||| b.binaryNotation, a.binaryPadded || b.binaryPadded,
   a.fullNotation || b.fullNotation, a.action ||| b.action, a.grammar ||| b.grammar⟩

/-- `FormatDescriptor.cpp:61-68`. -/
def flagsLookup : List (Char × FD) :=
  [(' ', ⟨0, 0, true, false, 0, 0, false, false, 0, 0⟩),
   ('-', ⟨0, 0, true, true, 0, 0, false, false, 0, 0⟩),
   ('0', ⟨0, 0, false, false, 0, 0, true, false, 0, 0⟩),
   ('#', ⟨0, 0, false, false, 0, 0, false, true, 0, 0⟩),
   ('S', ⟨0, 0, false, false, 0, 0, false, false, 0, 0⟩),
   ('J', ⟨0, 0, false, false, 0, 0, false, false, 0, 1⟩),
   ('X', ⟨0, 0, false, false, 0, 0, false, false, 0, 2⟩)]

/-- `FormatDescriptor.cpp:73-91`. -/
def typesLookup : List (Char × FD) :=
  [('!', ⟨0, 0, false, false, 0, 0, false, false, 0, 0⟩),
   ('?', ⟨0, 0, false, false, 0, 0, false, false, 5, 0⟩),
   ('@', ⟨0, 0, false, false, 0, 0, false, false, 6, 0⟩),
   ('d', ⟨0, 0, false, false, 0, 0, false, false, 1, 0⟩),
   ('i', ⟨0, 0, false, false, 0, 0, false, false, 1, 0⟩),
   ('u', ⟨0, 0, false, false, 0, 0, false, false, 1, 0⟩),
   ('s', ⟨0, 0, false, false, 0, 0, false, false, 4, 0⟩),
   ('c', ⟨0, 0, false, false, 0, 0, false, false, 4, 0⟩),
   ('f', ⟨0, 0, false, false, 0, 0, false, false, 2, 0⟩),
   ('F', ⟨0, 0, false, false, 1, 0, false, false, 2, 0⟩),
   ('e', ⟨0, 0, false, false, 2, 0, false, false, 2, 0⟩),
   ('E', ⟨0, 0, false, false, 3, 0, false, false, 2, 0⟩),
   ('g', ⟨0, 0, false, false, 6, 0, false, false, 2, 0⟩),
   ('G', ⟨0, 0, false, false, 7, 0, false, false, 2, 0⟩),
   ('x', ⟨0, 0, false, false, 0, 1, false, false, 1, 0⟩),
   ('p', ⟨0, 0, false, false, 0, 1, true, true, 3, 0⟩),
   ('o', ⟨0, 0, false, false, 0, 3, false, false, 1, 0⟩),
   ('b', ⟨0, 0, false, false, 0, 2, false, false, 1, 0⟩)]

/-- `FormatDescriptor.cpp:96-110` `LookupCharacter`. -/
def lookup : List (Char × FD) → Char → Option FD
  | [], _ => none
  | (k, f) :: t, c => if k = c then some f else lookup t c

/-- `FormatDescriptor.cpp:184-186`: the flags. -/
def parseFlags (fd : FD) : List Char → FD × List Char
  | [] => (fd, [])
  | c :: cs =>
    match lookup flagsLookup c with
    | some f => parseFlags (fd.or f) cs
    | none => (fd, c :: cs)

/-- `FormatDescriptor.cpp:134-139` `GetDigit`. -/
def getDigit (c : Char) : Option Nat := if 48 ≤ c.toNat ∧ c.toNat ≤ 57 then some (c.toNat - 48) else none

/-- `FormatDescriptor.cpp:145-162` `GetIntegerNumber`, in `uint32`. -/
def getInteger (number : Nat) : List Char → Nat × List Char
  | [] => (number, [])
  | c :: cs =>
    match getDigit c with
    | some d => getInteger ((number * 10 + d) % 2 ^ 32) cs
    | none => (number, c :: cs)

/-- `FormatDescriptor.cpp:191-202`: the precision. -/
def parsePrecision (fd : FD) : List Char → FD × List Char
  | '.' :: cs =>
    match cs with
    | [] => ({ fd with precision := 255 }, [])
    | c :: _ =>
      match getDigit c with
      | none => ({ fd with precision := 255 }, cs)
      | some _ => ({ fd with precision := min (getInteger 0 cs).1 255 }, (getInteger 0 cs).2)
  | cs => (fd, cs)

/-- `FormatDescriptor.cpp:171-218` `InitialiseFromString`: the answer, the description and where the text goes on; `none` if
the pointer is left beyond the terminator.  The assignments to `size` and `precision` saturate (`BitRange.h`, C03). -/
def initialise (fd : FD) (text : List Char) : Bool × FD × Option (List Char) :=
  match text with
  | [] => (false, fd, some [])
  | _ =>
    let (fd, text) := parseFlags fd text
    let (size, text) := getInteger 0 text
    let (fd, text) := parsePrecision { fd with size := min size 255 } text
    match text with
    | [] => (false, fd, none)
    | c :: cs =>
      match lookup typesLookup c with
      | some f => (true, fd.or f, some cs)
      | none => (false, fd, some cs)

/-! ## Parameters -/

/-- A value passed to `Printf`. -/
inductive Scalar
  | int (t : IType) (v : Int)
  | bool (b : Bool)
  /-- A pointer to characters: the address (zero is `NULL`) and the text. -/
  | text (addr : Nat) (s : List Char)
  | pointer (addr : Nat)
  /-- A stream: its content, the position, and if it can seek. -/
  | stream (content : List Char) (pos : Nat) (canSeek : Bool)
  /-- A floating point number of 32 bits, or (wide) of 64. -/
  | float (wide : Bool) (x : FloatPrint.Num)
deriving DecidableEq, Repr

/-- Parameters: `AnyType`.  A single character is a `Character8Bit` with no dimensions. -/
inductive Arg
  | scalar (x : Scalar)
  | char (c : Char)
  | vector (xs : List Scalar)
  | matrix (rows : List (List Scalar))
deriving DecidableEq, Repr

/-- What a print does: the answer and the text; `none` if memory is read outside of the text. -/
abbrev Out := Option (Bool × List Char)

/-- `IOBufferIntegerPrint.cpp:468-497` `IntegerToStreamPrivate`. -/
def printInteger (fd : FD) (t : IType) (v : Int) : List Char :=
  let bits := if fd.binaryPadded then t.w else 0
  let bytes :=
    if fd.binaryNotation = 0 then printDecimal t v fd.size fd.padded fd.leftAligned fd.binaryPadded
    else if fd.binaryNotation = 1 then printRadix .hex t v fd.size fd.padded fd.leftAligned bits fd.fullNotation
    else if fd.binaryNotation = 3 then printRadix .oct t v fd.size fd.padded fd.leftAligned bits fd.fullNotation
    else printRadix .bin t v fd.size fd.padded fd.leftAligned bits fd.fullNotation
  bytes.map fun b => Char.ofNat b.toNat

/-- `IOBuffer.cpp:1292-1307`: a pointer to characters; with the hexadecimal notation the address is printed. -/
def printText (fd : FD) (addr : Nat) (s : List Char) : Out :=
  if fd.binaryNotation = 1 then some (true, printInteger fd ⟨64, false⟩ addr)
  else printCCString ⟨fd.size, fd.padded, fd.leftAligned⟩ fd.fullNotation s

/-- `IOBuffer.cpp:539-652` `PrintStream`. -/
def printStream (fd : FD) (quotes : Bool) (content : List Char) (pos : Nat) (canSeek : Bool) : Out :=
  let f : Config.Fmt := ⟨fd.size, fd.padded, fd.leftAligned⟩
  if canSeek = true then
    let left := (content.length + 2 ^ 64 - pos) % 2 ^ 64 % 2 ^ 32
    let gap := if quotes then 2 else 0
    let size := if fd.size > 0 then (if left > fd.size then fd.size else left) else left + gap
    let paddingSize := if fd.size > 0 ∧ fd.padded = true ∧ size < fd.size then fd.size - size else 0
    let desSize := if fd.size > 0 then fd.size else size
    if size > 10000 then printCCString f false "!! too big > 10000 characters!!".toList
    else if desSize ≥ gap then
      let isPadding := decide (paddingSize > gap)
      let size := if isPadding then size else sub32 size (gap - paddingSize)
      let padding := if isPadding then List.replicate (paddingSize - gap) ' ' else []
      let quote := if quotes then ['"'] else []
      if size ≤ content.length - pos then
        some (true, (if fd.leftAligned then [] else padding) ++ quote ++ (content.drop pos).take size ++ quote ++
          (if fd.leftAligned then padding else []))
      else none
    else some (false, [])
  else printCCString f false "!!stream !seek!!".toList

/-- `FormatDescriptor.h:55-86`: the notations; no letter gives the values 4 and 5. -/
def notation' (n : Nat) : FloatPrint.Notation :=
  if n = 0 then .fixed else if n = 1 then .relative else if n = 2 then .exponent else if n = 3 then .engineering
  else if n = 6 then .smart else .compact

/-- `IOBufferFloatPrint.cpp:1520-1543` `FloatToStream`: the answer is no if a digit is out of range (`!` is printed). -/
def printFloat (fd : FD) (wide : Bool) (x : FloatPrint.Num) : Bool × List Char :=
  let t := FloatPrint.print (FloatPrint.ieee (if wide then FloatNum.f64 else FloatNum.f32)) wide
    ⟨fd.size, fd.precision, fd.padded, fd.leftAligned, notation' fd.floatNotation⟩ x
  (!t.contains '!', t)

variable (lit : List Char → Nat)

/-- The text printed for `%?`, e.g. `IOBuffer.cpp:1089-1095`: a literal, at the address `lit name`. -/
def printInfo (fd : FD) (name : String) : Out := printText { fd with action := 4 } (lit name.toList) name.toList

/-- `IOBuffer.cpp:1065-1378` `PrintToStreamScalar`. -/
def printScalar (fd : FD) : Scalar → Out
  | .int t v =>
    if fd.action = 5 then printInfo lit fd (if t.signed then "Signed Integer" else "Unsigned Integer")
    else some (true, printInteger fd t v)
  | .bool b =>
    if fd.action = 5 then printInfo lit fd "BooleanType"
    else printInfo lit fd (if b then "true" else "false")
  | .text addr s =>
    if addr = 0 then some (false, [])
    else if fd.action = 5 then printInfo lit fd "Char String"
    else printText fd addr s
  | .pointer addr =>
    if addr = 0 then some (false, [])
    else if fd.action = 5 then printInfo lit fd "Pointer"
    else some (true, printInteger { fd with binaryNotation := 1, action := 1 } ⟨64, false⟩ addr)
  | .stream content pos canSeek =>
    if fd.action = 5 then printInfo lit fd "Stream"
    else printStream fd fd.fullNotation content pos canSeek
  | .float wide x =>
    if fd.action = 5 then printInfo lit fd "Float"
    else some (printFloat fd wide x)

/-- `IOBuffer.cpp:145-335`: how arrays are opened, closed and separated in a grammar; `none` if there is no such grammar. -/
def marks (grammar : Nat) : Option (Char × Char × List Char) :=
  if grammar = 0 then some ('{', '}', [])
  else if grammar = 1 then some ('[', ']', [','])
  else if grammar = 2 then some ('[', ']', [','])
  else none

/-- `IOBuffer.cpp:1402-1435`: the elements of an array. -/
def printElements (fd : FD) (sep : List Char) : List Scalar → Out
  | [] => some (true, [])
  | x :: xs =>
    match printScalar lit fd x with
    | none => none
    | some (false, t) => some (false, t)
    | some (true, t) =>
      (printElements fd sep xs).map fun r => (r.1, t ++ (if xs.isEmpty then [] else sep) ++ [' '] ++ r.2)

/-- `IOBuffer.cpp:1387-1444` `PrintToStreamVector`. -/
def printVector (fd : FD) (xs : List Scalar) : Out :=
  match marks fd.grammar with
  | none => some (false, [])
  | some (o, c, sep) =>
    (printElements lit fd sep xs).map fun r => (r.1, [o, ' '] ++ r.2 ++ (if r.1 then [c, ' '] else []))

/-- `IOBuffer.cpp:1475-1506`: the rows of a matrix. -/
def printRows (fd : FD) (sep : List Char) : List (List Scalar) → Out
  | [] => some (true, [])
  | x :: xs =>
    match printVector lit fd x with
    | none => none
    | some (false, t) => some (false, t)
    | some (true, t) => (printRows fd sep xs).map fun r => (r.1, t ++ (if xs.isEmpty then [] else sep) ++ r.2)

/-- `IOBuffer.cpp:1453-1514` `PrintToStreamMatrix`. -/
def printMatrix (fd : FD) (rows : List (List Scalar)) : Out :=
  match marks fd.grammar with
  | none => some (false, [])
  | some (o, c, sep) =>
    (printRows lit fd sep rows).map fun r => (r.1, [o, ' '] ++ r.2 ++ (if r.1 then [c, ' '] else []))

/-- `IOBuffer.cpp:1522-1548` `PrintToStream`.  For a character the number of dimensions, zero, is decremented (1530). -/
def printArg (fd : FD) : Arg → Out
  | .matrix rows => printMatrix lit fd rows
  | .vector xs => printVector lit fd xs
  | .scalar x => printScalar lit fd x
  | .char _ => some (false, [])

/-- `IOBuffer.cpp:1702-1760` `PrintFormatted`; `fuel` bounds the number of rounds. -/
def printFrom : (fuel : Nat) → List Char → List Arg → Out
  | 0, _, _ => some (false, [])
  | _ + 1, [], _ => some (true, [])
  | fuel + 1, c :: cs, args =>
    if c = '%' then
      match initialise FD.default cs with
      | (true, fd, some rest) =>
        match args with
        | [] => printFrom fuel rest []                 -- `pars[parsIndex].IsVoid()`
        | a :: args =>
          match printArg lit fd a with
          | none => none
          | some (false, t) => some (false, t)
          | some (true, t) => (printFrom fuel rest args).map fun r => (r.1, t ++ r.2)
      | _ => some (false, [])
    else (printFrom fuel cs args).map fun r => (r.1, c :: r.2)

/-- `Printf(format, args…)`. -/
def printf (format : List Char) (args : List Arg) : Out := printFrom lit (format.length + 1) format args

end Verif.Format
