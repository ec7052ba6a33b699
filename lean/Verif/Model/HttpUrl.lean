import Verif.Model.Token
import Verif.Model.Format
/-!
# Model of the coding of URLs and of the request line

`BareMetal/L4HttpService/HttpDefinition.cpp` and `FileSystem/L4HttpService/HttpProtocol.cpp`.  Characters are those with codes below
256 (`char8`).  The streams are `StreamString`s: the list of the characters that are still to be read.
-/
namespace Verif.HttpUrl
open Verif.Token (getToken searchChar)
open Verif.Format (printf)

/-- `HttpDefinition.cpp:43` `Http2Convert`. -/
def http2Convert : List Char :=
  [' ', '#', '%', '<', '>', '&', '~', ',', '$', '+', '=', ':', '/', '?', '[', ']', '"', '@', '{', '}']

/-- `HttpDefinition.cpp:45-66` `HttpEncode` to a stream: `write` is what the stream does with a text (the address of the literal `%` is not null).  The answer is the one of the
last character. -/
def encodeTo {σ : Type} (lit : List Char → Nat) (write : σ → List Char → Bool × σ) : Bool → σ → List Char → Option (Bool × σ)
  | ret, s, [] => some (ret, s)
  | ret, s, c :: cs =>
    if c = '\x00' then some (ret, s)
    else if searchChar http2Convert c then
      match printf lit ['%', 's', '%', '2', 'x'] [.scalar (.text 1 ['%']), .scalar (.int ⟨8, false⟩ c.toNat)] with
      | none => none
      | some (ok, text) => encodeTo lit write (ok && (write s text).1) (write s text).2 cs
    else encodeTo lit write (write s [c]).1 (write s [c]).2 cs

/-- `HttpEncode` to a `StreamString`, which takes all that is written. -/
def encode (lit : List Char → Nat) (text : List Char) : Option (Bool × List Char) :=
  encodeTo lit (fun s t => (true, s ++ t)) true [] text

/-- `HttpDefinition.cpp:68-84` `HexDecode`. -/
def hexDecode (c : Char) : Int :=
  let n := c.toNat
  if 48 ≤ n ∧ n ≤ 57 then n - 48
  else if 97 ≤ n ∧ n ≤ 102 then n - 97 + 10
  else if 65 ≤ n ∧ n ≤ 70 then n - 65 + 10
  else -1

/-- The conversion of an `int32` to `char8`. -/
def char8 (n : Int) : Char := Char.ofNat (n % 256).toNat

/-- `HttpDefinition.cpp:86-108` `HttpDecode` between two `StreamString`s.  `none`: the second digit is read from a buffer that was not
written. -/
def decode : List Char → Option (List Char)
  | [] => some []
  | c :: cs =>
    if c = '%' then
      match cs with
      | [] => some ['%']
      | [_] => none
      | a :: b :: cs => (decode cs).map (char8 (hexDecode a * 16 + hexDecode b) :: ·)
    else (decode cs).map (c :: ·)

/-- What follows a `Buffer()` call: the text to the first zero. -/
def cString (s : List Char) : List Char := s.takeWhile (· ≠ '\x00')

/-- `HttpProtocol.cpp:538-552`: the loop over the parts of the decoded URL; `path` is what was built before. -/
def pathLoop : (fuel : Nat) → (decoded path : List Char) → List Char
  | 0, _, path => path
  | fuel + 1, decoded, path =>
    let r := getToken ['\\', '/'] none decoded
    if r.ok then
      pathLoop fuel r.rest (path ++ cString r.out ++ (if r.sep ≠ '\x00' ∧ r.out.length > 0 then ['.'] else []))
    else path

/-- `HttpProtocol.cpp:517-559` `BuildUrl`: path, terminator and rest of the line. -/
def buildUrl (line : List Char) : Option (List Char × Char × List Char) :=
  let r := getToken [' ', '\r', '\n', '?'] (some [' ', '\r', '\n', '?']) line
  (decode r.out).map fun d => (pathLoop (d.length + 1) d [], r.sep, r.rest)

/-- `HttpProtocol.cpp:583-605`: one command; the answer and the call of `Write`, if there is one. -/
def storeCommand (ends : List Char) (command : List Char) : Option (Bool × Option (List Char × List Char)) :=
  if command.length > 3 then
    let r := getToken ['='] none command
    if r.ok then
      let v := getToken ends none r.rest
      match decode v.out, decode r.out with
      | some value, some name => some (decide (cString name ≠ []), some (cString name, cString value))
      | _, _ => none
    else some (false, none)
  else some (true, none)

/-- `HttpProtocol.cpp:577-611`: the loop over the commands; the answer and the calls of `Write` (one on an empty name fails,
`ConfigurationDatabase.cpp:108`). -/
def storeLoop : (fuel : Nat) → (commands : List Char) → (writes : List (List Char × List Char)) → Option (Bool × List (List Char × List Char))
  | 0, _, _ => none
  | fuel + 1, commands, writes =>
    let r := getToken ['&'] none commands
    if r.ok then
      match storeCommand [] r.out with
      | none => none
      | some (false, _) => some (false, writes)
      | some (true, w) => storeLoop fuel r.rest (writes ++ w.toList)
    else some (true, writes)

/-- `HttpProtocol.cpp:561-613` `StoreCommands`: the answer, the calls of `Write` and the rest of the line. -/
def storeCommands (line : List Char) : Option (Bool × List (List Char × List Char) × List Char) :=
  let r := getToken [' ', '\t'] none line
  (storeLoop (r.out.length + 1) r.out []).map fun x => (x.1, x.2, r.rest)

/-- What is known of a request after its first line. -/
structure Request where
  command : List Char
  path : List Char
  commands : List (List Char × List Char)
  version : List Char
deriving DecidableEq, Repr

/-- `HttpProtocol.cpp:160-205`, the first line of a request (commands GET, PUT, POST and HEAD, `RetrieveHttpCommand` 462-515): `none` is
undefined behaviour, `some none` that the request is refused.  The version is the text of the word. -/
def requestLine (line : List Char) : Option (Option Request) :=
  let c := getToken [' ', '\r', '\n', '\t'] (some [' ', '\r', '\n', '\t']) line
  if c.out = ['G', 'E', 'T'] ∨ c.out = ['P', 'U', 'T'] ∨ c.out = ['P', 'O', 'S', 'T'] ∨ c.out = ['H', 'E', 'A', 'D'] then
    match buildUrl c.rest with
    | none => none
    | some (path, sep, rest) =>
      let stored := if sep = '?' then storeCommands rest else some (true, [], rest)
      match stored with
      | none => none
      | some (false, _, _) => some none
      | some (true, writes, rest) =>
        let v := getToken [' ', '\r', '\n', '\t'] (some [' ', '\r', '\n', '\t']) rest
        if v.ok then some (some ⟨c.out, path, writes, v.out⟩) else some none
  else some none

/-- `HttpProtocol.cpp:849-884`, the loop of `HandlePostApplicationForm`: the calls of `Write`.  After a command that fails the loop goes on
without emptying `command`; this is not modelled (`none`). -/
def formLoop : (fuel : Nat) → (line : List Char) → (writes : List (List Char × List Char)) → Option (List (List Char × List Char))
  | 0, _, _ => none
  | fuel + 1, line, writes =>
    let r := getToken ['&'] none line
    if r.ok then
      match storeCommand [';'] r.out with
      | some (true, w) => formLoop fuel r.rest (writes ++ w.toList)
      | _ => none
    else some writes

/-- `HttpProtocol.cpp:839-887` `HandlePostApplicationForm`: the first line of the content. -/
def postForm (content : List Char) : Option (List (List Char × List Char)) :=
  let l := Verif.Token.getLine true content
  if l.ok then formLoop (l.out.length + 1) l.out [] else some []

end Verif.HttpUrl
