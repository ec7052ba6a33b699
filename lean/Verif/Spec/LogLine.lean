import Verif.Model.LogLine
/-!
# What a consumer of a logger prints

Written from the documentation of `LoadPrintPreferences` (`LoggerConsumerI.h`).  Taken from the model: the record of what is
known about a message (`Info`).
-/
namespace Verif.Spec.LogLine
open Verif.LogLine (Info Text)

/-- What can be printed of a message. -/
inductive Field | code | ticks | time | name | address | cls | thread | platform | function | file | message
deriving DecidableEq, Repr

/-- The letter of `Format` that asks for it. -/
def Field.letter : Field → Char
  | .code => 'E' | .ticks => 'T' | .time => 't' | .name => 'O' | .address => 'o' | .cls => 'C' | .thread => 'R'
  | .platform => 'P' | .function => 'f' | .file => 'F' | .message => 'm'

/-- The key that is printed before it. -/
def Field.key : Field → Text
  | .code => ['E'] | .ticks => ['T', 'M'] | .time => ['T', 'M'] | .name => ['o'] | .address => ['O'] | .cls => ['C']
  | .thread => ['T'] | .platform => ['P'] | .function => ['f'] | .file => ['F'] | .message => ['D']

/-- The order in which fields are printed. -/
def order : List Field := [.code, .ticks, .time, .name, .address, .cls, .thread, .platform, .function, .file, .message]

/-- What is before the content of a field. -/
def mark (keys : Bool) (f : Field) : Text := if keys then ['|'] ++ f.key ++ ['='] else ['|']

/-- Decimal numbers. -/
def decimal (v : Int) : Text := if v < 0 then '-' :: Nat.toDigits 10 v.natAbs else Nat.toDigits 10 v.natAbs

/-- Numbers of two digits. -/
def two (n : Nat) : Text := if n < 10 then '0' :: Nat.toDigits 10 n else Nat.toDigits 10 n

/-- The sixteen digits of an address. -/
def hexDigit (d : Nat) : Char := "0123456789ABCDEF".toList.getD d '?'
def address (a : Nat) : Text := ['0', 'x'] ++ (List.range 16).map fun k => hexDigit (a / 16 ^ (15 - k) % 16)

/-- The kinds of errors and their names: the bit `k` of the code. -/
def kinds : List (Nat × Text) :=
  [(14, "Debug".toList), (15, "Information".toList), (16, "Warning".toList), (0, "FatalError".toList),
   (1, "RecoverableError".toList), (2, "InitialisationError".toList), (3, "OSError".toList), (4, "ParametersError".toList),
   (5, "IllegalOperation".toList), (6, "ErrorSharing".toList), (7, "ErrorAccessDenied".toList), (8, "Exception".toList),
   (9, "Timeout".toList), (10, "CommunicationError".toList), (11, "SyntaxError".toList), (12, "UnsupportedFeature".toList),
   (13, "InternalSetupError".toList), (17, "Completed".toList), (18, "NotCompleted".toList)]

/-- The name of a code: that of the first kind, in this order, whose bit it has. -/
def codeName (code : Nat) : Text :=
  match kinds.find? fun k => code.testBit k.1 with
  | some k => k.2
  | none => "NoError".toList

/-- The content of a field; `none` if it is not printed. -/
def content (clock : Int → Option (Nat × Nat × Nat)) (i : Info) (msg : Text) : Field → Option Text
  | .code => some (codeName i.errorType)
  | .ticks => some (decimal i.hrtTime)
  | .time => (clock i.timeSeconds).map fun t =>
      two t.1 ++ [':'] ++ two t.2.1 ++ [':'] ++ two t.2.2 ++ [' ', '('] ++ decimal i.hrtTime ++ [')']
  | .name => some (i.objectName.getD [])
  | .address => some (if i.objectPointer = 0 then [] else address i.objectPointer)
  | .cls => some (i.className.getD [])
  | .thread => some []
  | .platform => some (i.platformSpecificString.getD [])
  | .function => some (i.functionName.getD [])
  | .file => some (match i.fileName with
      | some f => f ++ [':'] ++ decimal i.lineNumber
      | none => [])
  | .message => some msg

/-- The line: each field that is asked for, after its mark. -/
def line (clock : Int → Option (Nat × Nat × Nat)) (keys : Bool) (format : Text) (i : Info) (msg : Text) : Text :=
  (order.filter fun f => format.contains f.letter).flatMap fun f =>
    match content clock i msg f with
    | some t => mark keys f ++ t
    | none => []

/-- The formats that are understood: at most eleven letters, all of them known. -/
def Known (format : Text) : Prop := format.length ≤ 11 ∧ ∀ c ∈ format, ∃ f : Field, c = f.letter

/-- The machine and its clock: the numbers fit in their types, and hours, minutes and seconds have at most two digits. -/
def Sound (clock : Int → Option (Nat × Nat × Nat)) (i : Info) : Prop :=
  i.hrtTime < 2 ^ 64 ∧ -2 ^ 15 ≤ i.lineNumber ∧ i.lineNumber < 2 ^ 15 ∧ i.objectPointer < 2 ^ 64 ∧
  ∀ h m s, clock i.timeSeconds = some (h, m, s) → h < 100 ∧ m < 100 ∧ s < 100

/-- The fields that are asked for are all printed, and there are no bars in them but in the message. -/
def Readable (clock : Int → Option (Nat × Nat × Nat)) (format : Text) (i : Info) (msg : Text) : Prop :=
  ∀ x : Field, x.letter ∈ format → ∃ t, content clock i msg x = some t ∧ (x ≠ .message → '|' ∉ t)

end Verif.Spec.LogLine
