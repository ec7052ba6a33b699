/-!
# Model of the math expression compiler

`BareMetal/L4Configuration/MathExpressionParser.cpp` (tables and actions) and the table-driven loop of
`BareMetal/L4Configuration/ParserI.cpp`.

Simplifications:
* the input is the list of tokens of the `LexicalAnalyzer`; once exhausted, the analyser gives end-of-file tokens for
  ever (`LexicalAnalyzer.cpp:652-658`);
* the text of the program is kept as its lines, each line as its words;
* the lists of pending operators and of pending casts (`StaticList`) grow without limit; error messages are left out;
* a read outside a table is the outcome `oob`; `more` means that the fuel was not enough.
-/
namespace Verif.Math

/-- A token: number of its terminal (`MathExpressionParser.cpp:95-119`), 0 when it is none of them
(`ParserI.cpp:93-117`: end of file, lexical error, unknown terminal), and its text. -/
structure Tok where
  ty : Nat
  data : String
deriving DecidableEq, Repr

/-- The end-of-file token. -/
def eof : Tok := ⟨0, ""⟩

/-- A line of the stack machine program. -/
abbrev Line := List String

/-- `MathExpressionParser.cpp:41-52`. -/
def production : List Nat :=
  [0, 3, 23, 24, 39, 7, 24, 45, 1, 2, 26, 25, 46, 2, 25, 3, 2, 25, 4, 3, 26, 28, 40, 2, 27, 5, 2, 27, 6, 2, 27,
   7, 3, 28, 30, 41, 2, 29, 8, 2, 29, 9, 2, 29, 10, 2, 29, 11, 2, 29, 12, 2, 29, 13, 3, 30, 32, 42, 2, 31, 14,
   2, 31, 15, 3, 32, 34, 43, 2, 33, 16, 2, 33, 17, 2, 34, 36, 5, 34, 47, 31, 36, 49, 5, 34, 47, 35, 36, 48, 2,
   35, 18, 2, 36, 37, 7, 36, 19, 50, 1, 20, 37, 51, 7, 36, 19, 50, 1, 20, 52, 21, 3, 36, 53, 21, 2, 37, 38, 8,
   37, 47, 1, 19, 26, 44, 20, 48, 4, 38, 19, 26, 20, 3, 38, 53, 1, 3, 39, 24, 39, 1, 39, 6, 40, 47, 27, 28, 48,
   40, 1, 40, 6, 41, 47, 29, 30, 48, 41, 1, 41, 6, 42, 47, 31, 32, 48, 42, 1, 42, 6, 43, 47, 33, 34, 48, 43, 1,
   43, 4, 44, 4, 26, 44, 1, 44, 0]

/-- `MathExpressionParser.cpp:54-60`. -/
def productionRow : List Nat :=
  [0, 1, 5, 13, 16, 19, 23, 26, 29, 32, 36, 39, 42, 45, 48, 51, 54, 58, 61, 64, 68, 71, 74, 77, 83, 89, 92, 95,
   103, 111, 115, 118, 127, 132, 136, 140, 142, 149, 151, 158, 160, 167, 169, 176, 178, 183, 0]

/-- `MathExpressionParser.cpp:62-71`. -/
def parseArray : List Nat :=
  [0, 0, 1, 2, 43, 43, 43, 43, 43, 43, 43, 43, 43, 43, 43, 43, 43, 42, 42, 3, 4, 43, 41, 41, 41, 41, 41, 41,
   41, 41, 41, 41, 41, 40, 40, 6, 7, 8, 5, 41, 39, 39, 39, 39, 39, 38, 38, 38, 38, 38, 38, 5, 5, 9, 47, 5, 5,
   39, 5, 10, 11, 12, 13, 14, 15, 16, 9, 9, 17, 18, 9, 9, 30, 9, 19, 26, 20, 21, 16, 16, 44, 33, 16, 16, 22,
   16, 25, 19, 19, 34, 0, 19, 19, 46, 19, 29, 45, 23, 23, 32, 0, 24, 22, 0, 22, 37, 37, 36, 36, 36, 35, 0, 0,
   0, 0, 0, 0, 0, 0, 0, 0, 0, 37, 0, 0]

/-- `MathExpressionParser.cpp:73-77`. -/
def parseRow : List Nat :=
  [0, 1, 2, 16, 37, 30, 52, 51, 64, 54, 73, 60, 83, 68, 74, 53, 80, 88, 102, 37, 19, 1, 76, 0]

/-- `MathExpressionParser.cpp:79-85`. -/
def conflict : List Nat :=
  [0, 0, 48, 0, 0, 0, 0, 0, 0, 0, 0, 0, 0, 0, 0, 26, 26, 0, 0, 26, 26, 0, 26, 30, 30, 30, 30, 30, 30, 30, 30,
   30, 30, 30, 30, 30, 30, 30, 0, 31, 30, 26, 26, 26, 26, 26, 26, 26, 26, 26, 26, 26, 26, 26, 0, 26, 49, 27, 0,
   26, 26, 26, 26, 26, 26, 26, 26, 26, 26, 26, 26, 26, 26, 26, 0, 27, 26, 28]

/-- `MathExpressionParser.cpp:87-91`. -/
def conflictRow : List Nat :=
  [0, 1, 20, 36, 56, 0]

/-- `MathExpressionParser.cpp:93`: the constants used by the parser. -/
def startSymbol : Nat := 23
def endOfInput : Nat := 22
def startConflict : Nat := 46
def startAction : Nat := 45

/-- Outcomes. -/
inductive Res (α : Type)
  | ok (a : α)
  | oob
  | more
deriving DecidableEq

/-- Usable entries of the symbol stack: `ParserI.h:282` 512, less the zero at the bottom (`ParserI.cpp:151-152`). -/
def stackCap : Nat := 511

/-- `ParserI.h:294-303` `StackPush`: with the stack full, the symbol is dropped. -/
def push (cap : Nat) (x : Nat) (st : List Nat) : List Nat := if st.length < cap then x :: st else st

/-- State of the parser: the symbol being processed, the symbols below, `token`, `new_token`, the current token, the
tokens to come, the pending operators and casts (last first), `assignmentVarName`, the program so far and the flags. -/
structure PS where
  symbol : Nat
  stack : List Nat
  token : Nat
  newToken : Nat
  cur : Tok
  rest : List Tok
  ops : List String
  casts : List String
  name : String
  out : List Line
  isEOF : Bool
  isError : Bool
deriving DecidableEq

/-- `ParserI.cpp:93-117` `GetNextTokenType`. -/
def next (s : PS) : PS := { s with cur := s.rest.headD eof, rest := s.rest.tail }

/-- `ParserI.cpp:119-138` `PeekNextTokenType`. -/
def peek (rest : List Tok) (level : Nat) : Nat := (rest.getD level eof).ty

/-- `StringHelper.cpp:66-101` `ToUpper`: the letters `a` to `z`. -/
def upperChar (c : Char) : Char := if 'a'.toNat ≤ c.toNat ∧ c.toNat ≤ 'z'.toNat then Char.ofNat (c.toNat - 32) else c
def upper (s : String) : String := String.ofList (s.toList.map upperChar)

/-- `MathExpressionParser.cpp:170-232` `OperatorFormatting`. -/
def opFormat (o : String) : String :=
  if o = "&&" then "AND" else if o = "||" then "OR" else if o = "^" then "XOR" else if o = "==" then "EQ"
  else if o = "!=" then "NEQ" else if o = ">" then "GT" else if o = "<" then "LT" else if o = ">=" then "GTE"
  else if o = "<=" then "LTE" else if o = "+" then "ADD" else if o = "-" then "SUB" else if o = "*" then "MUL"
  else if o = "/" then "DIV" else if o = "!" then "NOT" else upper o

/-- Append a line. -/
def emit (s : PS) (l : Line) : PS := { s with out := s.out ++ [l] }

/-- `MathExpressionParser.cpp:235-244` `PushOperator`. -/
def pushOperator (s : PS) : PS := { s with ops := s.cur.data :: s.ops }

/-- `MathExpressionParser.cpp:246-271` `PopOperator`. -/
def popOperator (s : PS) : PS :=
  match s.ops with
  | o :: os => emit { s with ops := os } [opFormat o]
  | [] => emit s ["ERR"]

/-- `MathExpressionParser.cpp:273-306` `PopOperatorAlternate`. -/
def popOperatorAlternate (s : PS) : PS :=
  match s.ops with
  | o :: os =>
    if o = "+" then { s with ops := os }
    else if o = "-" then emit { s with ops := os } ["NEG"]
    else { s with ops := os }
  | [] => emit s ["ERR"]

/-- `MathExpressionParser.cpp:309-318` `PushTypecast`. -/
def pushTypecast (s : PS) : PS := { s with casts := s.cur.data :: s.casts }

/-- `MathExpressionParser.cpp:320-346` `PopTypecast`. -/
def popTypecast (s : PS) : PS :=
  match s.casts with
  | t :: ts => emit { s with casts := ts } ["CAST", t]
  | [] => emit s ["ERR"]

/-- `MathExpressionParser.cpp:348-363` `AddOperand`. -/
def addOperand (s : PS) : PS :=
  if s.cur.ty = 1 then emit s ["READ", s.cur.data]
  else if s.cur.ty = 21 then emit s ["CONST", "float64", s.cur.data]
  else emit s ["ERR"]

/-- `MathExpressionParser.cpp:365-392` `AddOperandTypecast`. -/
def addOperandTypecast (s : PS) : PS :=
  match s.casts with
  | t :: ts => emit { s with casts := ts } ["CONST", t, s.cur.data]
  | [] => emit s ["ERR"]

/-- `MathExpressionParser.cpp:394-397` `StoreAssignment`, `400-406` `PopAssignment`. -/
def storeAssignment (s : PS) : PS := { s with name := s.cur.data }
def popAssignment (s : PS) : PS := emit s ["WRITE", s.name]

/-- `MathExpressionParser.cpp:137-146, 408-410` `Execute`. -/
def execute (n : Nat) (s : PS) : PS :=
  match n with
  | 1 => storeAssignment s
  | 2 => popAssignment s
  | 3 => pushOperator s
  | 4 => popOperator s
  | 5 => popOperatorAlternate s
  | 6 => pushTypecast s
  | 7 => popTypecast s
  | 8 => addOperandTypecast s
  | 9 => addOperand s
  | _ => s

/-- `ParserI.cpp:173-176`: the entry of the conflict table; `none` is a read outside the tables. -/
def conf (e ty : Nat) : Option Nat :=
  match conflictRow[e - (startConflict - 1)]? with
  | none => none
  | some row => conflict[row + ty]?

/-- `ParserI.cpp:172-178`: the loop that resolves conflicts by looking further ahead. -/
def resolve (rest : List Tok) : (fuel level entry : Nat) → Res Nat
  | 0, _, _ => .more
  | fuel + 1, level, entry =>
    if startConflict ≤ entry then
      match conf entry (peek rest level) with
      | none => .oob
      | some e => resolve rest fuel (level + 1) e
    else .ok entry

/-- `ParserI.cpp:167-171`: the entry of the parse table. -/
def entry0 (symbol token : Nat) : Option Nat :=
  match parseRow[symbol - (startSymbol - 1)]? with
  | none => none
  | some row => parseArray[row + token]?

/-- `ParserI.cpp:167-178`: the entry of the tables for a symbol and the tokens to come. -/
def lookup (fuel symbol token : Nat) (rest : List Tok) : Res Nat :=
  match entry0 symbol token with
  | none => .oob
  | some e => resolve rest fuel 0 e

/-- `ParserI.cpp:180-188`: the left side and the right side of a production. -/
def production? (entry : Nat) : Option (Nat × List Nat) :=
  match productionRow[entry]? with
  | none => none
  | some p =>
    match production[p]?, production[p + 1]? with
    | some n, some lhs =>
      if p + 1 + (n - 1) < production.length then some (lhs, (production.drop (p + 2)).take (n - 1)) else none
    | _, _ => none

/-- `ParserI.cpp:196-201, 204-210`: no production for this token. -/
def reject (s : PS) : PS :=
  if s.token = 0 then { s with isEOF := true, newToken := endOfInput }
  else { s with isError := true, newToken := endOfInput }

/-- `ParserI.cpp:161-225`: what is done with a symbol. -/
def process (cap fuel : Nat) (s : PS) : Res PS :=
  if startAction ≤ s.symbol then .ok (execute (s.symbol - (startAction - 1)) s)
  else if startSymbol ≤ s.symbol then
    match lookup fuel s.symbol s.token s.rest with
    | .oob => .oob
    | .more => .more
    | .ok entry =>
      if 0 < entry then
        match production? entry with
        | none => .oob
        | some (lhs, rhs) =>
          if lhs = s.symbol then .ok { s with stack := rhs.foldr (push cap) s.stack }
          else .ok (reject s)
      else .ok (reject s)
  else if s.symbol = s.token then
    .ok { next s with token := (next s).cur.ty, newToken := (next s).cur.ty }
  else .ok { s with isError := true, newToken := endOfInput }

/-- `ParserI.h:305-312` `StackPop`. -/
def pop (s : PS) : PS := { s with symbol := s.stack.headD 0, stack := s.stack.tail }

/-- `ParserI.cpp:226-234`: the end of the body of the loop. -/
def after (s : PS) : PS :=
  if s.token ≠ s.newToken then
    let s := if 0 < s.newToken then { s with token := s.newToken } else s
    if s.token ≠ endOfInput then s else pop s
  else pop s

/-- `ParserI.cpp:160-235`: the loop over the symbols. -/
def inner (cap : Nat) : Nat → PS → Res PS
  | 0, _ => .more
  | fuel + 1, s =>
    if 0 < s.symbol ∧ s.isError = false then
      match process cap fuel s with
      | .ok s' => inner cap fuel (after s')
      | .oob => .oob
      | .more => .more
    else .ok s

/-- `ParserI.cpp:149-158`: start of a round of the outer loop. -/
def begin (cap : Nat) (s : PS) : PS :=
  let s := next { s with stack := push cap startSymbol [] }
  pop { s with token := s.cur.ty, newToken := s.cur.ty }

/-- `ParserI.cpp:237-242`: end of a round. -/
def finish (s : PS) : PS := if s.token ≠ endOfInput then { s with isError := true } else s

/-- `ParserI.cpp:146-243`: the outer loop. -/
def outer (cap : Nat) : Nat → PS → Res PS
  | 0, _ => .more
  | fuel + 1, s =>
    if s.isError = false ∧ s.isEOF = false then
      match inner cap fuel (begin cap s) with
      | .ok s' => outer cap fuel (finish s')
      | .oob => .oob
      | .more => .more
    else .ok s

/-- A new parser. -/
def PS.new (input : List Tok) : PS :=
  { symbol := 0, stack := [], token := 0, newToken := 0, cur := eof, rest := input, ops := [], casts := [], name := ""
    out := [], isEOF := false, isError := false }

/-- `ParserI.cpp:142-246` `Parse` followed by `GetStackMachineExpression` (`MathExpressionParser.cpp:452-455`), on a
stack with room for `cap` symbols. -/
def parse (cap fuel : Nat) (input : List Tok) : Res (Bool × List Line) :=
  match outer cap fuel (PS.new input) with
  | .ok s => .ok (!s.isError, s.out)
  | .oob => .oob
  | .more => .more

end Verif.Math
