/-!
# Model of token extraction: `BareMetal/L3Streams/IOBuffer.cpp` and `BufferedStreamI.cpp`

The stream that is read is the list of the characters that `GetC` has still to deliver (`IOBuffer.h:635-661`; that
buffered reading delivers them is the subject of C21).  The output of the first form is the list of the characters
accepted by `PutC`, which is taken to succeed (a `StreamString` grows).
-/
namespace Verif.Token

/-- `StringHelper_CLIB_Generic.cpp:85-95` `SearchChar(set, c) != NULL`: `strchr` also finds the final zero. -/
def searchChar (set : List Char) (c : Char) : Bool := set.contains c || c == '\x00'

/-- What one call leaves: return value, output, `saveTerminator`, rest of the stream. -/
structure Res where
  ok : Bool
  out : List Char
  sep : Char
  rest : List Char
deriving DecidableEq

/-- `IOBuffer.cpp:1627-1668`, the loop of `GetToken(IOBuffer &, ...)`; `n` is the `uint32` `tokenSize`. -/
def getTokenLoop (term skip : List Char) : List Char → Nat → List Char → Res
  | [], n, out => ⟨n != 0, out, '\x00', []⟩
  | c :: cs, n, out =>
    if searchChar term c || c == '\x00' then
      if n != 0 || !searchChar skip c then ⟨true, out, c, cs⟩
      else getTokenLoop term skip cs n out
    else if !searchChar skip c then getTokenLoop term skip cs ((n + 1) % 2 ^ 32) (out ++ [c])
    else getTokenLoop term skip cs n out

/-- `IOBuffer.cpp:1621-1671` `GetToken(IOBuffer &, terminator, saveTerminator, skipCharacters)`; `skip = none` is the
null pointer. -/
def getToken (term : List Char) (skip : Option (List Char)) (s : List Char) : Res :=
  getTokenLoop term (skip.getD term) s 0 []

/-- `BufferedStreamI.cpp:109-122` `GetLine(output, skipTerminators)` where new lines are one character. -/
def getLine (skipTerminators : Bool) (s : List Char) : Res :=
  getToken ['\n'] (some (if skipTerminators then ['\r'] else [])) s

/-- `IOBuffer.cpp:1553-1619` `GetToken(char8 *, terminator, outputBufferSize, ...)`: the output is an array of `size`
characters of which `out` have been written; `none` is a write outside of it.  `limit` is the decremented
`outputBufferSize`. -/
def getTokenArrLoop (size limit : Nat) (term skip : List Char) : List Char → List Char → Option Res
  | [], out => if out.length < size then some ⟨out.length != 0, out, '\x00', []⟩ else none
  | c :: cs, out =>
    if searchChar term c || c == '\x00' then
      if out.length != 0 || !searchChar skip c then
        if out.length < size then some ⟨true, out, c, cs⟩ else none
      else getTokenArrLoop size limit term skip cs out
    else if !searchChar skip c then
      if out.length < size then
        if out.length + 1 ≥ limit then
          if out.length + 1 < size then some ⟨true, out ++ [c], c, cs⟩ else none
        else getTokenArrLoop size limit term skip cs (out ++ [c])
      else none
    else getTokenArrLoop size limit term skip cs out

/-- `IOBuffer.cpp:1553-1561`: the decrement of the `uint32` size. -/
def getTokenArr (size : Nat) (term : List Char) (skip : Option (List Char)) (s : List Char) : Option Res :=
  getTokenArrLoop size ((size + 2 ^ 32 - 1) % 2 ^ 32) term (skip.getD term) s []

/-- `IOBuffer.cpp:1673-1700` `SkipTokens(count, terminator)`: return value and rest of the stream. -/
def skipTokensLoop (term : List Char) : List Char → Nat → Nat → Bool × List Char
  | s, 0, _ => (true, s)
  | [], _ + 1, _ => (false, [])
  | c :: cs, count + 1, n =>
    if searchChar term c || c == '\x00' then
      if n != 0 then skipTokensLoop term cs count 0 else skipTokensLoop term cs (count + 1) n
    else skipTokensLoop term cs (count + 1) ((n + 1) % 2 ^ 32)

def skipTokens (count : Nat) (term s : List Char) : Bool × List Char := skipTokensLoop term s count 0

/-- The customer's loop: `while (stream.GetToken(token, terminator, c)) ...`, with at most `fuel` calls. -/
def collect (call : List Char → Option Res) : Nat → List Char → Option (List (List Char × Char))
  | 0, _ => some []
  | fuel + 1, s => (call s).bind fun r =>
    if r.ok then (collect call fuel r.rest).map ((r.out, r.sep) :: ·) else some []

end Verif.Token
