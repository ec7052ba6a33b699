import Verif.Model.FloatInt
/-!
# Text to floating point number: `Source/Core/BareMetal/L4Configuration/StringToFloat.cpp`

A text is the list of its characters up to the terminator; reading at the end gives `'\x00'`.  Not modelled: the texts
that begin with `0x`, `0o` or `0b` (`StringToFloat.cpp:323-331`), which are converted as integers (C15, C49) and then by
`IntegerToFloat` (C67).
-/
namespace Verif.FloatNum

/-- `StringToFloat.cpp:160-163`: the value of a decimal digit. -/
def digit? (c : Char) : Option Nat :=
  if 48 ≤ c.toNat ∧ c.toNat ≤ 57 then some (c.toNat - 48) else none

/-- The check for NaN and for an infinity. -/
def bad (f : Fmt) (x : Flt) : Bool := isNaN x || isInf f x

/-- The variables of `StringToNormalFloatPrivate` after a loop: `room` is `1000 - i`, `rest` the text from `i` on. -/
structure Scan where
  number : Flt
  ret : Bool
  canReturn : Bool
  digit : Char
  rest : List Char
  room : Nat

/-- `StringToFloat.cpp:157-199` The digits of the integer part. -/
def intLoop (f : Fmt) : (room : Nat) → (cs : List Char) → (number : Flt) → (digit : Char) → Scan
  | 0, cs, number, digit => ⟨number, true, false, digit, cs, 0⟩
  | room + 1, cs, number, _ =>
    let c := cs.headD '\x00'
    match digit? c with
    | some d =>
      let numberTemp := mul f number (ofInt f 10)
      if bad f numberTemp then ⟨number, false, true, c, cs.tail, room⟩
      else
        let numberTemp := add f numberTemp (ofInt f d)
        if bad f numberTemp then ⟨number, false, true, c, cs.tail, room⟩
        else intLoop f room cs.tail numberTemp c
    | none =>
      if c = '.' ∨ c = 'E' ∨ c = 'e' then ⟨number, true, false, c, cs, room + 1⟩
      else ⟨number, c = '\x00', true, c, cs.tail, room⟩

/-- `StringToFloat.cpp:209-239` The digits of the decimal part; `number` is `decimalPart`. -/
def decLoop (f : Fmt) : (room : Nat) → (cs : List Char) → (decimalPart decimalExp : Flt) → (digit : Char) → Scan
  | 0, cs, decimalPart, _, digit => ⟨decimalPart, true, false, digit, cs, 0⟩
  | room + 1, cs, decimalPart, decimalExp, _ =>
    let c := cs.headD '\x00'
    match digit? c with
    | some d =>
      let decimalExp := mul f decimalExp (ofInt f 10)
      if bad f decimalExp then ⟨decimalPart, true, true, c, cs.tail, room⟩
      else decLoop f room cs.tail (add f decimalPart (div f (ofInt f d) decimalExp)) decimalExp c
    | none =>
      if c = 'E' ∨ c = 'e' then ⟨decimalPart, true, false, c, cs, room + 1⟩
      else ⟨decimalPart, c = '\x00', true, c, cs.tail, room⟩

/-- `StringToFloat.cpp:270-290` The digits of the exponent: the exponent, `ret` and `canReturn`. -/
def expLoop : (room : Nat) → (cs : List Char) → (exponent : Nat) → Nat × Bool × Bool
  | 0, _, exponent => (exponent, true, false)
  | room + 1, cs, exponent =>
    let c := cs.headD '\x00'
    match digit? c with
    | some d =>
      let exponent := exponent * 10 + d
      if exponent ≥ 512 then (exponent, false, true) else expLoop room cs.tail exponent
    | none => (exponent, c = '\x00', false)

/-- `static_cast<T>(1E<step>)` and `static_cast<T>(1E-<step>)`: the literals are of type `float64`. -/
def literal (f : Fmt) (negative : Bool) (step : Nat) : Flt :=
  castFloat f64 f
    (if negative then roundQ f64 false (2 ^ f64.K) (10 ^ step) else roundQ f64 false (10 ^ step * 2 ^ f64.K) 1)

/-- `StringToFloat.cpp:49-62` `CHECK_AND_MUL` and `CHECK_AND_DIV`. -/
def checkStep (f : Fmt) (negative : Bool) (s : Flt × Nat) (step : Nat) : Flt × Nat :=
  if s.2 ≥ step then (mul f s.1 (literal f negative step), s.2 - step) else s

/-- `StringToFloat.cpp:75-111` `AddExponent`; `wide` is `sizeof(T) > 4u`. -/
def addExponent (f : Fmt) (wide : Bool) (number : Flt) (exponent : Nat) (expPositive : Bool) : Flt :=
  let s := (if wide then [256, 128, 64] else []).foldl (checkStep f (!expPositive)) (number, exponent)
  let s := [32, 16, 8, 4, 2].foldl (checkStep f (!expPositive)) s
  if s.2 ≥ 1 then (if expPositive then mul f s.1 (ofInt f 10) else div f s.1 (ofInt f 10)) else s.1

/-- `StringToFloat.cpp:203-252` The decimal part: only after a dot. -/
def decimalPhase (f : Fmt) (s : Scan) : Scan :=
  if s.digit = '.' then
    let t := decLoop f (s.room - 1) s.rest.tail (.fin 0) (ofInt f 1) s.digit
    let numberTemp := add f s.number t.number
    if bad f numberTemp then { t with number := s.number, ret := false, canReturn := true }
    else { t with number := numberTemp }
  else s

/-- `StringToFloat.cpp:255-304` The exponent. -/
def exponentPhase (f : Fmt) (wide : Bool) (s : Scan) : Bool × Flt :=
  if (s.digit = 'E' ∨ s.digit = 'e') ∧ s.canReturn = false then
    let cs := s.rest.tail
    let room := s.room - 1
    let c := cs.headD '\x00'
    let expPositive := c ≠ '-'
    let signed := c = '+' ∨ c = '-'
    let r := if signed then expLoop (room - 1) cs.tail 0 else expLoop room cs 0
    if r.2.2 then (s.ret && r.2.1, s.number)
    else
      let numberTemp := addExponent f wide s.number r.1 expPositive
      if bad f numberTemp then (false, s.number) else (s.ret && r.2.1, numberTemp)
  else (s.ret, s.number)

/-- `StringToFloat.cpp:131-312` `StringToNormalFloatPrivate`: the answer and the number. -/
def stringToFloat (f : Fmt) (wide : Bool) (input : List Char) : Bool × Flt :=
  let c := input.headD '\x00'
  let isNegative := c = '-'
  let s := if c = '-' ∨ c = '+' then intLoop f 999 input.tail (.fin 0) '\x00' else intLoop f 1000 input (.fin 0) '\x00'
  let r := if s.canReturn then (s.ret, s.number) else exponentPhase f wide (decimalPhase f s)
  (r.1, if isNegative then neg r.2 else r.2)

end Verif.FloatNum
