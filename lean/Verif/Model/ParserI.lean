/-!
# Model of the table-driven parser

`BareMetal/L4Configuration/ParserI.cpp` and `ParserI.h`, for any tables and any actions.

Simplifications:
* the input is the list of tokens of the `LexicalAnalyzer`; once exhausted, the analyser gives end-of-file tokens for
  ever (`LexicalAnalyzer.cpp:652-658`);
* an action sees the current token and the state of the derived class; it gives a new state and tells if it set
  `isError`; error messages are left out;
* a read outside a table is the outcome `oob`; the use of a null pointer by an action is the outcome `crash`; `more`
  means that the fuel was not enough.
-/
namespace Verif.Parser

/-- A token: the number of its terminal, 0 when it is none of them (`ParserI.cpp:93-117`: end of file, lexical error,
terminal that is not in the grammar), and its text. -/
structure Tok where
  ty : Nat
  data : List Char
deriving DecidableEq, Repr

/-- The end-of-file token. -/
def eof : Tok := ⟨0, []⟩

/-- The static tables of a grammar, and those of its constants (`ParserI.h:60-100`) that the loop uses. -/
structure Tables where
  production : List Nat
  productionRow : List Nat
  parseArray : List Nat
  parseRow : List Nat
  conflict : List Nat
  conflictRow : List Nat
  startSymbol : Nat
  endOfInput : Nat
  startConflict : Nat
  startAction : Nat

/-- Outcomes. -/
inductive Res (α : Type)
  | ok (a : α)
  | oob
  | crash
  | more
deriving DecidableEq

/-- Usable entries of the symbol stack: `ParserI.h:282` 512, less the zero at the bottom (`ParserI.cpp:151-152`). -/
def stackCap : Nat := 511

/-- `ParserI.h:294-303` `StackPush`: with the stack full, the symbol is dropped. -/
def push (cap : Nat) (x : Nat) (st : List Nat) : List Nat := if st.length < cap then x :: st else st

/-- State of the parser: the symbol being processed, the symbols below, `token`, `new_token`, `currentToken`, the
tokens to come, the state of the derived class and the flags. -/
structure PS (σ : Type) where
  symbol : Nat
  stack : List Nat
  token : Nat
  newToken : Nat
  cur : Tok
  rest : List Tok
  user : σ
  isEOF : Bool
  isError : Bool

/-- Action number, current token, state: the new state and whether `isError` was set; `none` is a null pointer. -/
abbrev Exec (σ : Type) := Nat → Tok → σ → Option (σ × Bool)

variable {σ : Type} (T : Tables) (exec : Exec σ)

/-- `ParserI.cpp:93-117` `GetNextTokenType`. -/
def next (s : PS σ) : PS σ := { s with cur := s.rest.headD eof, rest := s.rest.tail }

/-- `ParserI.cpp:119-138` `PeekNextTokenType`. -/
def peek (rest : List Tok) (level : Nat) : Nat := (rest.getD level eof).ty

/-- `ParserI.cpp:173-176`: the entry of the conflict table; `none` is a read outside the tables. -/
def conf (e ty : Nat) : Option Nat :=
  match T.conflictRow[e - (T.startConflict - 1)]? with
  | none => none
  | some row => T.conflict[row + ty]?

/-- `ParserI.cpp:172-178`: the loop that resolves conflicts by looking further ahead. -/
def resolve (rest : List Tok) : (fuel level entry : Nat) → Res Nat
  | 0, _, _ => .more
  | fuel + 1, level, entry =>
    if T.startConflict ≤ entry then
      match conf T entry (peek rest level) with
      | none => .oob
      | some e => resolve rest fuel (level + 1) e
    else .ok entry

/-- `ParserI.cpp:167-171`: the entry of the parse table. -/
def entry0 (symbol token : Nat) : Option Nat :=
  match T.parseRow[symbol - (T.startSymbol - 1)]? with
  | none => none
  | some row => T.parseArray[row + token]?

/-- `ParserI.cpp:167-178`: the entry of the tables for a symbol and the tokens to come. -/
def lookup (fuel symbol token : Nat) (rest : List Tok) : Res Nat :=
  match entry0 T symbol token with
  | none => .oob
  | some e => resolve T rest fuel 0 e

/-- `ParserI.cpp:180-188`: the left side and the right side of a production. -/
def production? (entry : Nat) : Option (Nat × List Nat) :=
  match T.productionRow[entry]? with
  | none => none
  | some p =>
    match T.production[p]?, T.production[p + 1]? with
    | some n, some lhs =>
      if p + 1 + (n - 1) < T.production.length then some (lhs, (T.production.drop (p + 2)).take (n - 1)) else none
    | _, _ => none

/-- `ParserI.cpp:196-201, 204-210`: no production for this token. -/
def reject (s : PS σ) : PS σ :=
  if s.token = 0 then { s with isEOF := true, newToken := T.endOfInput }
  else { s with isError := true, newToken := T.endOfInput }

/-- `ParserI.cpp:161-225`: what is done with a symbol. -/
def process (cap fuel : Nat) (s : PS σ) : Res (PS σ) :=
  if T.startAction ≤ s.symbol then
    match exec (s.symbol - (T.startAction - 1)) s.cur s.user with
    | some (u, err) => .ok { s with user := u, isError := err }
    | none => .crash
  else if T.startSymbol ≤ s.symbol then
    match lookup T fuel s.symbol s.token s.rest with
    | .oob => .oob
    | .crash => .crash
    | .more => .more
    | .ok entry =>
      if 0 < entry then
        match production? T entry with
        | none => .oob
        | some (lhs, rhs) =>
          if lhs = s.symbol then .ok { s with stack := rhs.foldr (push cap) s.stack }
          else .ok (reject T s)
      else .ok (reject T s)
  else if s.symbol = s.token then
    .ok { next s with token := (next s).cur.ty, newToken := (next s).cur.ty }
  else .ok { s with isError := true, newToken := T.endOfInput }

/-- `ParserI.h:305-312` `StackPop`. -/
def pop (s : PS σ) : PS σ := { s with symbol := s.stack.headD 0, stack := s.stack.tail }

/-- `ParserI.cpp:226-234`: the end of the body of the loop. -/
def after (s : PS σ) : PS σ :=
  if s.token ≠ s.newToken then
    let s := if 0 < s.newToken then { s with token := s.newToken } else s
    if s.token ≠ T.endOfInput then s else pop s
  else pop s

/-- `ParserI.cpp:160-235`: the loop over the symbols. -/
def inner (cap : Nat) : Nat → PS σ → Res (PS σ)
  | 0, _ => .more
  | fuel + 1, s =>
    if 0 < s.symbol ∧ s.isError = false then
      match process T exec cap fuel s with
      | .ok s' => inner cap fuel (after T s')
      | .oob => .oob
      | .crash => .crash
      | .more => .more
    else .ok s

/-- `ParserI.cpp:149-158`: start of a round of the outer loop. -/
def begin (cap : Nat) (s : PS σ) : PS σ :=
  let s := next { s with stack := push cap T.startSymbol [] }
  pop { s with token := s.cur.ty, newToken := s.cur.ty }

/-- `ParserI.cpp:237-242`: end of a round. -/
def finish (s : PS σ) : PS σ := if s.token ≠ T.endOfInput then { s with isError := true } else s

/-- `ParserI.cpp:146-243`: the outer loop. -/
def outer (cap : Nat) : Nat → PS σ → Res (PS σ)
  | 0, _ => .more
  | fuel + 1, s =>
    if s.isError = false ∧ s.isEOF = false then
      match inner T exec cap fuel (begin T cap s) with
      | .ok s' => outer cap fuel (finish T s')
      | .oob => .oob
      | .crash => .crash
      | .more => .more
    else .ok s

/-- `ParserI.cpp:64-84`: a new parser. -/
def PS.new (u : σ) (input : List Tok) : PS σ :=
  { symbol := 0, stack := [], token := 0, newToken := 0, cur := eof, rest := input, user := u
    isEOF := false, isError := false }

/-- `ParserI.cpp:142-246` `Parse`, on a stack with room for `cap` symbols: the result and the state of the derived
class. -/
def parse (cap fuel : Nat) (u : σ) (input : List Tok) : Res (Bool × σ) :=
  match outer T exec cap fuel (PS.new u input) with
  | .ok s => .ok (!s.isError, s.user)
  | .oob => .oob
  | .crash => .crash
  | .more => .more

end Verif.Parser
