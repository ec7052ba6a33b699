import Verif.Model.ConfigParser
/-!
# Model of the printing of strings, values and configurations

`BareMetal/L3Streams/IOBuffer.cpp` (`PrintCCString`, `PrintToStreamScalar`, `PrintToStreamVector`, `PrintToStreamMatrix`,
`PrintStructuredDataInterface`), with the standard grammar of `IOBufferStandardPrint.cpp`, and
`BareMetal/L3Streams/PrinterI.cpp` with `StandardPrinter.cpp`.

Simplifications: the output stream takes all that is written to it; the structured data is a `ConfigurationDatabase`; the
text of a number is a parameter (for integers, C16 and C50); strings have no zeros, and are shorter than 4 GB.
-/
namespace Verif.Config
open Verif.ConfigDb (Op Out St Name step)

/-! ## Strings -/

/-- The fields of `FormatDescriptor` used for strings (`L1Portability/FormatDescriptor.h:315-345`). -/
structure Fmt where
  size : Nat
  padded : Bool
  left : Bool
deriving DecidableEq, Repr

/-- Subtraction of `uint32`. -/
def sub32 (a b : Nat) : Nat := if a < b then a + 2 ^ 32 - b else a - b

/-- `IOBuffer.cpp:439-530` `PrintCCString`: the result and what is written; `none` if the string is read beyond its end. -/
def printCCString (fd : Fmt) (quotes : Bool) (s : List Char) : Option (Bool × List Char) :=
  let gap := if quotes then 2 else 0
  let stringSize := if fd.size > 0 then (if s.length > fd.size then fd.size else s.length) else s.length + gap
  let paddingSize := if fd.size > 0 ∧ fd.padded = true ∧ stringSize < fd.size then fd.size - stringSize else 0
  let desSize := if fd.size > 0 then fd.size else stringSize
  if desSize ≥ gap then
    let isPaddingSize := decide (paddingSize > gap)
    let stringSize := if isPaddingSize then stringSize else sub32 stringSize (gap - paddingSize)
    let padding := if isPaddingSize then List.replicate (paddingSize - gap) ' ' else []
    let quote := if quotes then ['"'] else []
    if stringSize ≤ s.length then
      some (true, (if fd.left then [] else padding) ++ quote ++ s.take stringSize ++ quote ++ (if fd.left then padding else []))
    else none
  else some (false, [])

/-! ## Values -/

variable {B : Type} (pr : Nat → B → List Char)

/-- `IOBuffer.cpp:1065-1378` `PrintToStreamScalar` with the format `#!`, for an element of a value of type `ty`. -/
def printScalar (ty : Nat) : Val B → Option (Bool × List Char)
  | .text s => printCCString ⟨0, false, false⟩ true s
  | .num b => some (true, pr ty b)

/-- `IOBuffer.cpp:1402-1435`: the loop of `PrintToStreamVector`, for the `k` elements from `off`; `none` if there is no
such element. -/
def printElements (v : Leaf B) : (off k : Nat) → Option (Bool × List Char)
  | _, 0 => some (true, [])
  | off, k + 1 =>
    match v.data[off]? with
    | none => none
    | some x =>
      match printScalar pr v.ty x with
      | none => none
      | some (false, t) => some (false, t)
      | some (true, t) => (printElements v (off + 1) k).map fun r => (r.1, t ++ [' '] ++ r.2)

/-- `IOBuffer.cpp:1387-1444` `PrintToStreamVector`. -/
def printVector (v : Leaf B) (off k : Nat) : Option (Bool × List Char) :=
  (printElements pr v off k).map fun r => if r.1 then (true, "{ ".toList ++ r.2 ++ "} ".toList) else (false, "{ ".toList ++ r.2)

/-- `IOBuffer.cpp:1475-1506`: the loop of `PrintToStreamMatrix`, from the row `i`. -/
def printRows (v : Leaf B) : (i k : Nat) → Option (Bool × List Char)
  | _, 0 => some (true, [])
  | i, k + 1 =>
    match printVector pr v (i * v.cols) v.cols with
    | none => none
    | some (false, t) => some (false, t)
    | some (true, t) => (printRows v (i + 1) k).map fun r => (r.1, t ++ r.2)

/-- `IOBuffer.cpp:1453-1514` `PrintToStreamMatrix`. -/
def printMatrix (v : Leaf B) : Option (Bool × List Char) :=
  (printRows pr v 0 v.rows).map fun r => if r.1 then (true, "{ ".toList ++ r.2 ++ "} ".toList) else (false, "{ ".toList ++ r.2)

/-- `IOBuffer.cpp:1522-1548` `PrintToStream`. -/
def printValue (v : Leaf B) : Option (Bool × List Char) :=
  if v.dims = 2 then printMatrix pr v
  else if v.dims = 1 then printVector pr v 0 v.cols
  else if v.dims = 0 then
    match v.data[0]? with
    | none => none
    | some x => printScalar pr v.ty x
  else some (false, [])

/-! ## Trees -/

/-- `IOBuffer.cpp:837-840, 870-873, 890-893`. -/
def indent (level : Nat) : List Char := (List.replicate level "    ".toList).flatten

/-- `IOBuffer.cpp:828-912` `PrintStructuredDataInterface` (`IOBufferStandardPrint.cpp:48-110`), from the child `i` of `n`:
the result, what is written, and the database (whose current node moves); `none`: a null pointer, or no more fuel.
A value of the database is never null, and a node has no value: `GetType` (`ConfigurationDatabase.cpp:127-136`) is the
value of the leaf. -/
def printKids : (fuel level n i : Nat) → St (Leaf B) → Option (Bool × List Char × St (Leaf B))
  | 0, _, _, _, _ => none
  | fuel + 1, level, n, i, s =>
    if i < n then
      match step s (.getChildName i) with
      | some (.name (some name), s) =>
        match step s (.read name) with
        | some (.value (some v), s) =>
          match printValue pr v with
          | none => none
          | some (false, t) => some (false, indent level ++ name ++ " = ".toList ++ t, s)
          | some (true, t) => (printKids fuel level n (i + 1) s).map fun r =>
              (r.1, indent level ++ name ++ " = ".toList ++ t ++ "\r\n".toList ++ r.2.1, r.2.2)
        | some (_, s) =>
          match step s (.moveRelative name) with
          | some (.flag true, s) =>
            match step s .getNumberOfChildren with
            | some (.size m, s) =>
              match printKids fuel (level + 1) m 0 s with
              | none => none
              | some (false, t, s) => some (false, indent level ++ name ++ " = {\r\n".toList ++ t, s)
              | some (true, t, s) =>
                match step s (.moveToAncestor 1) with
                | some (.flag true, s) => (printKids fuel level n (i + 1) s).map fun r =>
                    (r.1, indent level ++ name ++ " = {\r\n".toList ++ t ++ indent level ++ "}\r\n".toList ++ r.2.1, r.2.2)
                | some (_, s) => some (false, indent level ++ name ++ " = {\r\n".toList ++ t, s)
                | none => none
            | _ => none
          | some (_, s) => printKids fuel level n (i + 1) s
          | none => none
        | none => none
      | _ => none
    else some (true, [], s)

/-- `Printf("%!", db)`: `IOBuffer.cpp:1367-1370`. -/
def printTree (fuel : Nat) (s : St (Leaf B)) : Option (Bool × List Char × St (Leaf B)) :=
  match step s .getNumberOfChildren with
  | some (.size n, s) => printKids pr fuel 0 n 0 s
  | _ => none

/-- `PrinterI.cpp:122-240` `PrintStructuredDataI`, without collapsing arrays, with the printer of
`StandardPrinter.cpp`, from the child `i`. A failed call of the printer is only noticed at the end of the loop; with the
stream of this model only the printing of a value can fail: it is taken as the end. -/
def standardPrinter : (fuel i : Nat) → St (Leaf B) → Option (Bool × List Char × St (Leaf B))
  | 0, _, _ => none
  | fuel + 1, i, s =>
    match step s .getNumberOfChildren with
    | some (.size n, s) =>
      if i < n then
        match step s (.getChildName i) with
        | some (.name (some name), s) =>
          match step s (.moveRelative name) with
          | some (.flag true, s) =>
            match standardPrinter fuel 0 s with
            | none => none
            | some (false, t, s) => some (false, name ++ " = {".toList ++ t, s)
            | some (true, t, s) =>
              match step s (.moveToAncestor 1) with
              | some (.flag true, s) => (standardPrinter fuel (i + 1) s).map fun r =>
                  (r.1, name ++ " = {".toList ++ t ++ "}".toList ++ r.2.1, r.2.2)
              | some (_, s) => some (false, name ++ " = {".toList ++ t ++ "}".toList, s)
              | none => none
          | some (_, s) =>
            match step s (.read name) with
            | some (.value (some v), s) =>
              match printValue pr v with
              | none => none
              | some (false, t) => some (false, name ++ " =".toList ++ t, s)
              | some (true, t) => (standardPrinter fuel (i + 1) s).map fun r => (r.1, name ++ " =".toList ++ t ++ r.2.1, r.2.2)
            | some (_, s) => some (false, name ++ " =".toList, s)
            | none => none
          | none => none
        | _ => none
      else some (true, [], s)
    | _ => none

end Verif.Config
