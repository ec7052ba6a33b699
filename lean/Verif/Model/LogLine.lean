import Verif.Model.Format
/-!
# Model of the lines printed by the consumers of a logger

`Scheduler/L4LoggerService/LoggerConsumerI.cpp` (what is printed of a message and the preferences) and
`BareMetal/L1Portability/Environment/Generic/ErrorManagement_Generic.cpp` (`ReportError`, `ErrorCodeToStream`).

Simplifications: the streams take all that is written to them; texts are lists of characters without zeros, and the end of
the list is the terminator; a pointer to a text that is not `NULL` has an address that is never printed.  What `localtime_r`
answers (`TimeStamp::ConvertFromEpoch`) is a parameter.  The parameters of the configuration are the texts of `Format` and
the number `PrintKeys`, as they are read; `none` if they are not there or cannot be read.
-/
namespace Verif.LogLine
open Verif.Format (Arg Scalar Out printf)

abbrev Text := List Char

/-- `ErrorInformation.h:45-115`: what is known about a message. -/
structure Info where
  /-- `ErrorType`: 32 bits, one for each kind of error. -/
  errorType : Nat
  /-- `int16`. -/
  lineNumber : Int
  /-- `uint64`. -/
  hrtTime : Nat
  timeSeconds : Int
  objectName : Option Text
  objectPointer : Nat
  className : Option Text
  fileName : Option Text
  functionName : Option Text
  platformSpecificString : Option Text
deriving DecidableEq, Repr

/-- `ErrorManagement_Generic.cpp:130-157` `ReportError`: the information handed to the routine.  The time and the text of the
platform are what the system answers.  The number of the line is converted to `int16` when the function is called
(`AdvancedErrorManagement.h:59`). -/
def report (code : Nat) (clsName objName : Option Text) (objPtr : Nat) (file : Option Text) (line : Int) (fn : Option Text)
    (counter : Nat) (seconds : Int) (platform : Option Text) : Info :=
  { errorType := code, lineNumber := line.bmod (2 ^ 16), hrtTime := counter, timeSeconds := seconds, objectName := objName,
    objectPointer := objPtr, className := clsName, fileName := file, functionName := fn, platformSpecificString := platform }

/-- `ErrorManagement_Generic.cpp:62-86` `errorNames`, without the first row, that is skipped (102), and without the last, that
ends the table; with the bits of `ErrorType.h:59-167`. -/
def errorNames : List (Text × Nat) :=
  [("Debug".toList, 2 ^ 14), ("Information".toList, 2 ^ 15), ("Warning".toList, 2 ^ 16), ("FatalError".toList, 2 ^ 0),
   ("RecoverableError".toList, 2 ^ 1), ("InitialisationError".toList, 2 ^ 2), ("OSError".toList, 2 ^ 3),
   ("ParametersError".toList, 2 ^ 4), ("IllegalOperation".toList, 2 ^ 5), ("ErrorSharing".toList, 2 ^ 6),
   ("ErrorAccessDenied".toList, 2 ^ 7), ("Exception".toList, 2 ^ 8), ("Timeout".toList, 2 ^ 9),
   ("CommunicationError".toList, 2 ^ 10), ("SyntaxError".toList, 2 ^ 11), ("UnsupportedFeature".toList, 2 ^ 12),
   ("InternalSetupError".toList, 2 ^ 13), ("Completed".toList, 2 ^ 17), ("NotCompleted".toList, 2 ^ 18)]

/-- `ErrorType.h:587-589` `Contains`. -/
def contains (code bits : Nat) : Bool := code &&& bits == bits

/-- `ErrorManagement_Generic.cpp:105-121`: the names; each is written with its terminator (115). -/
def codeNames (code : Nat) (first : Bool) : List (Text × Nat) → Bool × Text
  | [] => (first, [])
  | (n, b) :: t =>
    if contains code b then
      let r := codeNames code true t
      (r.1, (if first then ['+'] else []) ++ n ++ ['\x00'] ++ r.2)
    else codeNames code first t

/-- `ErrorManagement_Generic.cpp:99-128` `ErrorCodeToStream`: what is written on the stream. -/
def errorCodeToStream (code : Nat) : Text :=
  let r := codeNames code false errorNames
  if r.1 then r.2 else r.2 ++ "NoError".toList

/-- The text at the address given by `StreamString::Buffer()`: it ends where the first zero is. -/
def buffer (s : Text) : Text := s.takeWhile (· != '\x00')

/-- `LoggerConsumerI.h:118-188` `FormatPreferences`. -/
structure Prefs where
  info : Bool := false
  timeShort : Bool := false
  timeFull : Bool := false
  objectName : Bool := false
  objectPointer : Bool := false
  functionName : Bool := false
  fileName : Bool := false
  message : Bool := false
  threadId : Bool := false
  className : Bool := false
  platformSpecificString : Bool := false
deriving DecidableEq, Repr

/-- `LoggerConsumerI.cpp:189-228`: the letters, until one is not known. -/
def loadLetters (p : Prefs) : Text → Bool × Prefs
  | [] => (true, p)
  | c :: cs =>
    if c = 'E' then loadLetters { p with info := true } cs
    else if c = 'T' then loadLetters { p with timeShort := true } cs
    else if c = 't' then loadLetters { p with timeFull := true } cs
    else if c = 'O' then loadLetters { p with objectName := true } cs
    else if c = 'o' then loadLetters { p with objectPointer := true } cs
    else if c = 'F' then loadLetters { p with fileName := true } cs
    else if c = 'f' then loadLetters { p with functionName := true } cs
    else if c = 'm' then loadLetters { p with message := true } cs
    else if c = 'R' then loadLetters { p with threadId := true } cs
    else if c = 'C' then loadLetters { p with className := true } cs
    else if c = 'P' then loadLetters { p with platformSpecificString := true } cs
    else (false, p)

/-- `LoggerConsumerI.h:178` `unMapped.BitOffset()`. -/
def bitOffset : Nat := 11

/-- `LoggerConsumerI.cpp:174-238` `LoadPrintPreferences`: the answer, the preferences and if keys are printed. -/
def load (printKeys : Bool) (format : Option Text) (keys : Option Nat) : Bool × Prefs × Bool :=
  match format with
  | none => (false, {}, printKeys)
  | some f =>
    if f.length < bitOffset + 1 then
      match loadLetters {} f with
      | (false, p) => (false, p, printKeys)
      | (true, p) =>
        match keys with
        | none => (true, p, printKeys)
        | some k => (true, p, k == 1)
    else (false, {}, printKeys)

/-- A pointer to characters as a parameter of `Printf`. -/
def cstr : Option Text → Arg
  | none => .scalar (.text 0 [])
  | some s => .scalar (.text 1 s)

/-- `(void) err.Printf(format, args…)`: what is added to the stream, whatever the answer is. -/
def put (s : Option Text) (format : String) (args : List Arg) : Option Text :=
  match s, printf (fun _ => 1) format.toList args with
  | some s, some (_, t) => some (s ++ t)
  | _, _ => none

def u64 : IntText.IType := ⟨64, false⟩
def u32 : IntText.IType := ⟨32, false⟩
def i16 : IntText.IType := ⟨16, true⟩

variable (clock : Int → Option (Nat × Nat × Nat))

/-- The `key` of each block of `PrintToStream`, e.g. `LoggerConsumerI.cpp:59-64`. -/
def key (printKeys : Bool) (k : String) : Arg := cstr (some (if printKeys then k.toList else ['|']))

/-- `LoggerConsumerI.cpp:58-67`. -/
def putInfo (p : Prefs) (keys : Bool) (i : Info) (s : Option Text) : Option Text :=
  if p.info then put s "%s%s" [key keys "|E=", cstr (some (buffer (errorCodeToStream i.errorType)))] else s

/-- `LoggerConsumerI.cpp:68-76`. -/
def putTimeShort (p : Prefs) (keys : Bool) (i : Info) (s : Option Text) : Option Text :=
  if p.timeShort then put s "%s%d" [key keys "|TM=", .scalar (.int u64 i.hrtTime)] else s

/-- `LoggerConsumerI.cpp:77-88`. -/
def putTimeFull (p : Prefs) (keys : Bool) (i : Info) (s : Option Text) : Option Text :=
  if p.timeFull then
    match clock i.timeSeconds with
    | some (h, m, sec) =>
      put s "%s%02d:%02d:%02d (%d)" [key keys "|TM=", .scalar (.int u32 h), .scalar (.int u32 m), .scalar (.int u32 sec),
        .scalar (.int u64 i.hrtTime)]
    | none => s
  else s

/-- `LoggerConsumerI.cpp:89-102`. -/
def putObjectName (p : Prefs) (keys : Bool) (i : Info) (s : Option Text) : Option Text :=
  if p.objectName then
    match i.objectName with
    | some n => put s "%s%s" [key keys "|o=", cstr (some n)]
    | none => put s "%s" [key keys "|o="]
  else s

/-- `LoggerConsumerI.cpp:103-116`. -/
def putObjectPointer (p : Prefs) (keys : Bool) (i : Info) (s : Option Text) : Option Text :=
  if p.objectPointer then
    if i.objectPointer ≠ 0 then put s "%s%p" [key keys "|O=", .scalar (.pointer i.objectPointer)]
    else put s "%s" [key keys "|O="]
  else s

/-- `LoggerConsumerI.cpp:117-125`. -/
def putClassName (p : Prefs) (keys : Bool) (i : Info) (s : Option Text) : Option Text :=
  if p.className then put s "%s%s" [key keys "|C=", cstr i.className] else s

/-- `LoggerConsumerI.cpp:126-135`. -/
def putThreadId (p : Prefs) (keys : Bool) (s : Option Text) : Option Text :=
  if p.threadId then put s "%s" [key keys "|T="] else s

/-- `LoggerConsumerI.cpp:136-144`. -/
def putPlatform (p : Prefs) (keys : Bool) (i : Info) (s : Option Text) : Option Text :=
  if p.platformSpecificString then put s "%s%s" [key keys "|P=", cstr i.platformSpecificString] else s

/-- `LoggerConsumerI.cpp:145-153`. -/
def putFunctionName (p : Prefs) (keys : Bool) (i : Info) (s : Option Text) : Option Text :=
  if p.functionName then put s "%s%s" [key keys "|f=", cstr i.functionName] else s

/-- `LoggerConsumerI.cpp:154-162`. -/
def putFileName (p : Prefs) (keys : Bool) (i : Info) (s : Option Text) : Option Text :=
  if p.fileName then put s "%s%s:%d" [key keys "|F=", cstr i.fileName, .scalar (.int i16 i.lineNumber)] else s

/-- `LoggerConsumerI.cpp:163-171`. -/
def putMessage (p : Prefs) (keys : Bool) (msg : Text) (s : Option Text) : Option Text :=
  if p.message then put s "%s%s" [key keys "|D=", cstr (some msg)] else s

/-- `LoggerConsumerI.cpp:54-172` `PrintToStream`: what is on an empty stream afterwards; `none` if memory is read outside of
a text. -/
def printToStream (p : Prefs) (keys : Bool) (i : Info) (msg : Text) : Option Text :=
  putMessage p keys msg <| putFileName p keys i <| putFunctionName p keys i <| putPlatform p keys i <|
  putThreadId p keys <| putClassName p keys i <| putObjectPointer p keys i <| putObjectName p keys i <|
  putTimeFull clock p keys i <| putTimeShort p keys i <| putInfo p keys i (some [])

/-- A consumer that is configured, and then prints a message. -/
def consume (format : Option Text) (keys : Option Nat) (i : Info) (msg : Text) : Option (Bool × Text) :=
  match load true format keys with
  | (false, _, _) => some (false, [])
  | (true, p, k) => (printToStream clock p k i msg).map fun t => (true, t)

end Verif.LogLine
