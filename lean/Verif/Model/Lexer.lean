import Verif.Model.Token
/-!
# Model of the lexical analyser

`BareMetal/L4Configuration/LexicalAnalyzer.cpp`: a text is cut into tokens, for any grammar
(`BareMetal/L3Streams/GrammarInfo.h`).

Simplifications:
* the stream is the list of the characters that are still to be read; `Position` and `Seek` are taken to work, so that a
  character read ahead and given back is not consumed (lines 626-648);
* the loop over the characters has fuel: as much as there are characters;
* a token is a value, not a pointer; the order of `new` and `delete` is not modelled;
* `conv` tells if a text is converted to a `float64` by `TypeConvert`.
-/
namespace Verif.Lexer
open Verif.Token (searchChar)

/-- `LexicalAnalyzer.h:49-74`, `LexicalAnalyzer.cpp:345-349`: the kinds of tokens. -/
inductive Kind
  | eof | string | number | terminal
deriving DecidableEq, Repr

/-- `Token.cpp:58-68`: a token. -/
structure Token where
  kind : Kind
  data : List Char
  line : Nat
deriving DecidableEq, Repr

/-- `GrammarInfo.h:51-131`: what the analyser uses of a grammar (`ParserI.cpp:69-75`): the terminals are the characters
from `assignment` to the first zero. -/
structure Grammar where
  seps : List Char
  oneLine : List Char
  multiBegin : List Char
  multiEnd : List Char
  keywords : List Char
  terms : List Char

/-- `GrammarInfo.h:137`. -/
def standard : Grammar where
  seps := "\n\r\t, ".toList
  oneLine := "//".toList
  multiBegin := "/*".toList
  multiEnd := "*/".toList
  keywords := []
  terms := "={}{}{}()|".toList

/-- `GrammarInfo.h:143`. -/
def json : Grammar where
  seps := "\n\r\t, ".toList
  oneLine := []
  multiBegin := []
  multiEnd := []
  keywords := []
  terms := ":{}[][]".toList

/-- `GrammarInfo.h:160-162`. -/
def math : Grammar where
  seps := "\n\r\t ".toList
  oneLine := "//".toList
  multiBegin := "/*".toList
  multiEnd := "*/".toList
  keywords := "|| && ^ < > <= >= == !=".toList
  terms := "+-*/=()()!,;".toList

/-- A string of characters up to the first zero. -/
def cstr (s : List Char) : List Char := s.takeWhile (· ≠ '\x00')

/-- `StringHelper_CLIB_Generic.cpp:237-247` `SearchString(s, sub) != NULL`. -/
def searchString : (s sub : List Char) → Bool
  | [], sub => sub.isEmpty
  | c :: s, sub => sub.isPrefixOf (c :: s) || searchString s sub

/-- What a character adds to the number of lines. -/
def nl (c : Char) : Nat := if c = '\n' then 1 else 0

/-- `LexicalAnalyzer.cpp:62-70` `ReadCommentOneLine`: what follows. -/
def readLine : List Char → List Char
  | [] => []
  | c :: cs => if c = '\n' then cs else readLine cs

/-- `LexicalAnalyzer.cpp:99-113`: the loop of `ReadCommentMultipleLines`; `win` are the last characters read. -/
def slide (mend : List Char) (win : List Char) : List Char → Nat → List Char × Nat
  | [], line => ([], line)
  | c :: cs, line =>
    if win = mend then (c :: cs, line) else slide mend (win.tail ++ [c]) cs (line + nl c)

/-- `LexicalAnalyzer.cpp:79-114` `ReadCommentMultipleLines`: what follows, and the line. -/
def readMulti (mend : List Char) (cs : List Char) (line : Nat) : List Char × Nat :=
  let win := cs.take mend.length
  slide mend win (cs.drop mend.length) (line + (win.map nl).sum)

/-- `LexicalAnalyzer.cpp:154-182`, for a new token: the separators are skipped. -/
def skipSeps (seps : List Char) : List Char → Nat → List Char × Nat
  | [], line => ([], line)
  | c :: cs, line => if searchChar seps c then skipSeps seps cs (line + nl c) else (c :: cs, line)

/-- `LexicalAnalyzer.cpp:185-209`: is there the begin of a comment of one line; the characters read, whether the stream
ended, and what follows. `pat` is what is left of the pattern, `c` the character read last. -/
def matchLine : (pat buf : List Char) → (c : Char) → (cs : List Char) → Bool × List Char × Bool × List Char
  | [], buf, c, cs => (buf != [], buf ++ [c], false, cs)
  | p :: pat, buf, c, cs =>
    if c = p then
      match cs with
      | [] => (false, buf ++ [c], true, [])
      | c' :: cs => matchLine pat (buf ++ [c]) c' cs
    else (false, buf ++ [c], false, cs)

/-- `LexicalAnalyzer.cpp:217-243`: is there the begin of a comment of many lines; `buf` are the characters read already
that are still to be compared, `all` all those read. -/
def matchMulti : (pat buf all cs : List Char) → Bool × List Char × Bool × List Char
  | [], _, all, cs => (true, all, false, cs)
  | p :: pat, x :: buf, all, cs => if x = p then matchMulti pat buf all cs else (false, all, false, cs)
  | _ :: _, [], all, [] => (false, all, true, [])
  | p :: pat, [], all, c :: cs =>
    if c = p then matchMulti pat [] (all ++ [c]) cs else (false, all ++ [c], false, cs)

/-- What `SkipComment` gives: its result, the characters in `buffer`, `separator`, the line and what follows. -/
structure Skip where
  ok : Bool
  buf : List Char
  sep : Char
  line : Nat
  rest : List Char

/-- `LexicalAnalyzer.cpp:185-263`: after the separators. -/
def skipFrom (g : Grammar) (c : Char) (cs : List Char) (line : Nat) : Skip :=
  match matchLine g.oneLine [] c cs with
  | (true, _, eof, cs) => ⟨!eof, [], '\n', line, readLine cs⟩
  | (false, buf, eof, cs) =>
    match matchMulti g.multiBegin buf buf cs with
    | (m, all, eof', cs) =>
      if m && g.multiBegin != [] then
        let (cs, line) := readMulti g.multiEnd cs line
        ⟨!(eof || eof'), [], '\x00', line, cs⟩
      else ⟨!(eof || eof'), all, '\x00', line, cs⟩

/-- `LexicalAnalyzer.cpp:133-264` `SkipComment`. -/
def skipComment (g : Grammar) (isNew : Bool) (cs : List Char) (line : Nat) : Skip :=
  if isNew then
    match skipSeps g.seps cs line with
    | ([], line) => ⟨false, [], '\x00', line, []⟩
    | (c :: cs, line) => skipFrom g c cs line
  else
    match cs with
    | [] => ⟨false, [], '\x00', line, []⟩
    | c :: cs => if searchChar g.seps c then ⟨true, [], c, line, cs⟩ else skipFrom g c cs line

/-- `LexicalAnalyzer.cpp:271-299` `EscapeChar`. -/
def escapeChar (c : Char) : Option Char :=
  if c = 'n' then some '\n' else if c = 't' then some '\t' else if c = 'r' then some '\r'
  else if c = '"' then some '"' else if c = '\\' then some '\\' else none

/-- A decimal digit. -/
def isDigit (c : Char) : Bool := decide ('0'.toNat ≤ c.toNat) && decide (c.toNat ≤ '9'.toNat)

/-- `LexicalAnalyzer.cpp:401-408`: the text starts with a digit, after a sign. -/
def startsDigit : List Char → Bool
  | [] => false
  | c :: cs => if c = '+' || c = '-' then (match cs with | [] => false | d :: _ => isDigit d) else isDigit c

/-- `LexicalAnalyzer.cpp:395-445` `AddToken`: the token added, if any. -/
def addToken (conv : List Char → Bool) (tokenString : List Char) (isString : Bool) (line : Nat) : List Token :=
  let s := cstr tokenString
  if s = [] then []
  else if !isString && startsDigit s && conv s then [⟨.number, s, line⟩]
  else
    let e := if s.getLast? = some '"' then s.dropLast else s
    -- line 429 looks at the first character before line 434 clears the last one, which may be the same
    let b := if s.head? = some '"' then e.tail else e
    [⟨.string, b, line⟩]

/-- The variables of the loop of `TokenizeInput`. -/
structure Scan where
  buf : List Char
  rest : List Char
  line : Nat
  str : List Char
  isStr : Bool
  esc : Bool
  sep : Char
  term : Char
  out : List Token

/-- `LexicalAnalyzer.cpp:563-591`: the next character, if the loop goes on; `c` is the one just processed. -/
def advance (g : Grammar) (c : Char) (s : Scan) : Scan × Option Char :=
  let s := { s with line := s.line + nl c }
  match s.buf with
  | x :: xs => ({ s with buf := xs }, some x)
  | [] =>
    if s.isStr then
      match s.rest with
      | [] => (s, none)
      | x :: xs => ({ s with rest := xs }, some x)
    else
      let r := skipComment g false s.rest s.line
      let s := { s with rest := r.rest, line := r.line, sep := r.sep }
      if r.ok then
        match r.buf with
        | [] => (s, none)
        | x :: xs => ({ s with buf := xs }, if x = '\x00' then none else some x)
      else (s, none)

/-- `LexicalAnalyzer.cpp:512-562`: what is done with a character: the variables, the character as it is after that, and
whether the loop goes on. While in a string (`isString1`) the only separator is the quote (lines 549-550). -/
def char (g : Grammar) (conv : List Char → Bool) (c : Char) (s : Scan) : Scan × Char × Bool :=
  if searchChar (if s.isStr then ['"'] else g.seps) c && !s.esc then
    if s.isStr then ({ s with str := s.str ++ [c], sep := c }, c, false)
    else ({ s with sep := c }, c, s.str.isEmpty)
  else if searchChar (if s.isStr then ['"'] else g.terms) c && !s.esc then
    if s.buf ≠ [] then
      ({ s with out := s.out ++ addToken conv s.str s.isStr s.line ++ [⟨.terminal, [c], s.line⟩], str := [] }, c, true)
    else ({ s with term := c }, c, false)
  else if s.esc then
    match escapeChar c with
    | some c' => ({ s with esc := false, str := s.str ++ [c'] }, c', true)
    | none => ({ s with esc := false, str := s.str ++ ['\\', c] }, c, true)
  else
    let s := if c = '"' ∧ s.str = [] then { s with isStr := true } else s
    if c = '\\' then ({ s with esc := true }, c, true)
    else ({ s with str := s.str ++ [c] }, c, true)

/-- `LexicalAnalyzer.cpp:509-592`: the loop over the characters. -/
def loop (g : Grammar) (conv : List Char → Bool) : Nat → Char → Scan → Scan
  | 0, _, s => s
  | n + 1, c, s =>
    match char g conv c s with
    | (s, _, false) => s
    | (s, c, true) =>
      match advance g c s with
      | (s, none) => s
      | (s, some c) => loop g conv n c s

/-- `LexicalAnalyzer.cpp:486-494`: comments and separators are skipped, up to a character or the end. -/
def start (g : Grammar) : Nat → List Char → Nat → Skip
  | 0, cs, line => ⟨false, [], '\x00', line, cs⟩
  | n + 1, cs, line =>
    let r := skipComment g true cs line
    let line := if r.sep = '\n' then r.line + 1 else r.line
    if r.ok && r.buf.headD '\x00' = '\x00' then start g n r.rest line else { r with line := line }

/-- `LexicalAnalyzer.cpp:597-650`: the tokens that end with this round, and what follows. -/
def conclude (g : Grammar) (conv : List Char → Bool) (s : Scan) : List Token × List Char :=
  let multi := cstr (s.str ++ [s.term])
  if s.str ≠ [] ∧ searchString g.keywords multi = true then ([⟨.terminal, multi, s.line⟩], s.rest)
  else
    let first :=
      if searchString g.keywords (cstr s.str) = true ∧ cstr s.str ≠ [] then [⟨.terminal, cstr s.str, s.line⟩]
      else addToken conv s.str s.isStr s.line
    if s.term = '\x00' then (first, s.rest)
    else
      let nextChar := s.rest.headD '\x00'
      let multi := cstr (if nextChar = ' ' then [s.term] else [s.term, nextChar])
      if searchString g.keywords multi = true then (first ++ [⟨.terminal, multi, s.line⟩], s.rest.tail)
      else (first ++ [⟨.terminal, [s.term], s.line⟩], s.rest)

/-- State of the analyser: the queue, the stream and the line. -/
structure Lex where
  queue : List Token
  rest : List Char
  line : Nat
deriving DecidableEq, Repr

/-- `LexicalAnalyzer.cpp:330-350`. -/
def Lex.new (text : List Char) : Lex := ⟨[], text, 1⟩

/-- `LexicalAnalyzer.cpp:478-665`: one round of `TokenizeInput`, with `ok` set. -/
def round (g : Grammar) (conv : List Char → Bool) (s : Lex) : Lex :=
  let r := start g (s.rest.length + 1) s.rest s.line
  if r.ok then
    let c := r.buf.headD '\x00'
    let e := loop g conv (s.rest.length + 1) c ⟨r.buf.tail, r.rest, r.line, [], false, false, '\x00', '\x00', []⟩
    let (ts, rest) := conclude g conv e
    ⟨s.queue ++ e.out ++ ts, rest, if e.sep = '\n' then e.line + 1 else e.line⟩
  else ⟨s.queue ++ [⟨.eof, [], r.line⟩], r.rest, r.line⟩

/-- `LexicalAnalyzer.cpp:470-666` `TokenizeInput`. The flag `ok` is not set again for the second round and those that
follow: each of them takes nothing from the stream and adds an end-of-file token (lines 472, 486, 502, 652-658). -/
def tokenizeInput (g : Grammar) (conv : List Char → Bool) (level : Nat) (s : Lex) : Lex :=
  if s.queue.length < level + 1 then
    let s := round g conv s
    { s with queue := s.queue ++ List.replicate (level + 1 - s.queue.length) ⟨.eof, [], s.line⟩ }
  else s

/-- `LexicalAnalyzer.cpp:306-316` `GetToken`. -/
def getToken (g : Grammar) (conv : List Char → Bool) (s : Lex) : Option Token × Lex :=
  let s := tokenizeInput g conv 0 s
  (s.queue.head?, { s with queue := s.queue.tail })

/-- `LexicalAnalyzer.cpp:319-328` `PeekToken`. -/
def peekToken (g : Grammar) (conv : List Char → Bool) (position : Nat) (s : Lex) : Option Token × Lex :=
  let s := tokenizeInput g conv position s
  (s.queue[position]?, s)

/-- A call of the interface. -/
inductive Call
  | get
  | peek (position : Nat)
deriving DecidableEq

def callStep (g : Grammar) (conv : List Char → Bool) (s : Lex) : Call → Option Token × Lex
  | .get => getToken g conv s
  | .peek p => peekToken g conv p s

/-- The tokens given by a sequence of calls. -/
def calls (g : Grammar) (conv : List Char → Bool) : Lex → List Call → List (Option Token)
  | _, [] => []
  | s, c :: cs => (callStep g conv s c).1 :: calls g conv (callStep g conv s c).2 cs

end Verif.Lexer
