import Verif.Model.Token
/-!
# Model of the header fields and of the forms of a request

`FileSystem/L4HttpService/HttpProtocol.cpp`.  A stream is the list of the characters that are still to be read, and no
others arrive; what is stored in the database is the list of the calls of `Write`, in order (one on an empty name fails,
`ConfigurationDatabase.cpp:108`, any other succeeds).
-/
namespace Verif.HttpFields
open Verif.Token (getToken getLine)

/-- Calls of `Write`: name and value. -/
abbrev Writes := List (List Char × List Char)

/-- `HttpProtocol.cpp:646-667`: one line that is not empty; `none`: there is no name, the line is ignored. -/
def storeOption (line : List Char) : Option (List Char × List Char) :=
  let k := getToken [' ', '\t', ':'] none line
  if k.ok then
    let v := getToken [' ', '\t'] none k.rest
    let value := if v.rest.length > 0 then v.out ++ [' '] else v.out
    some (k.out, value ++ (getToken [] none v.rest).out)
  else none

/-- `HttpProtocol.cpp:626-670`: the loop of `StoreInputOptions`: the answer, the calls of `Write` and the rest of the
stream; a stream that has ended fails `MAX_RETRIES` times. -/
def optionsLoop : (fuel : Nat) → (stream : List Char) → Writes → Option (Bool × Writes × List Char)
  | 0, _, _ => none
  | fuel + 1, stream, writes =>
    let l := getLine true stream
    if l.ok then
      if l.out.length > 0 then optionsLoop fuel l.rest (writes ++ (storeOption l.out).toList)
      else some (true, writes, l.rest)
    else some (false, writes, l.rest)

/-- `HttpProtocol.cpp:615-673` `StoreInputOptions`. -/
def storeInputOptions (stream : List Char) : Option (Bool × Writes × List Char) := optionsLoop (stream.length + 1) stream []

/-- What `Read` finds: the last value that was written under that name. -/
def read (writes : Writes) (name : List Char) : Option (List Char) :=
  (writes.reverse.find? fun w => w.1 == name).map Prod.snd

/-- `HttpProtocol.cpp:417-430`: what `WriteHeader` writes for the options. -/
def writeOptions (options : Writes) : List Char :=
  options.flatMap (fun o => o.1 ++ [':', ' '] ++ o.2 ++ ['\r', '\n']) ++ ['\r', '\n']

/-- `StringHelper_CLIB_Generic.cpp:237-247` `SearchString`: the text from the first occurrence on. -/
def searchString (sub : List Char) : List Char → Option (List Char)
  | [] => if sub.isPrefixOf [] then some [] else none
  | c :: cs => if sub.isPrefixOf (c :: cs) then some (c :: cs) else searchString sub cs

/-- The text to the next quote (lines 685-688, 704-707); `none`: there is no quote, and what follows the text is read. -/
def quoted (s : List Char) : Option (List Char) := if '"' ∈ s then some (s.takeWhile (· ≠ '"')) else none

/-- The variables of `HandlePostMultipartFormData`. -/
structure Form where
  content : List Char
  name : List Char
  filename : List Char
  value : List Char
  headerHandled : Bool
  writes : Writes
deriving DecidableEq, Repr

/-- `Write`: it fails when the name is empty. -/
def Form.write (f : Form) (name value : List Char) : Bool × Form :=
  if name = [] then (false, f) else (true, { f with writes := f.writes ++ [(name, value)] })

def kName : List Char := "name=".toList
def kNameQuoted : List Char := "name=\"".toList
def kFilename : List Char := "filename=\"".toList
def kType : List Char := "Content-Type: ".toList

/-- `HttpProtocol.cpp:709-732`: what is stored of a file. -/
def fileHeader (f : Form) : Bool × Form :=
  if f.filename.length > 0 then
    let r := f.write (f.name ++ ":filename".toList) f.filename
    if r.1 then
      let l := getLine true r.2.content
      let f := { r.2 with content := l.rest }
      if l.ok then
        match searchString kType l.out with
        | some t => f.write (f.name ++ ":Content-Type".toList) (t.drop kType.length)
        | none => (true, f)
      else (true, f)
    else r
  else (true, f)

/-- `HttpProtocol.cpp:675-735` `HandlePostHeader`; `none`: memory outside of a text is read. -/
def handlePostHeader (line : List Char) (f : Form) : Option (Bool × Form) :=
  let name := match searchString kNameQuoted line with
    | some t => quoted (t.drop kNameQuoted.length)
    | none => match searchString kName line with
      | some t => some (t.drop kName.length)
      | none => some f.name
  let filename := match searchString kFilename line with
    | some t => quoted (t.drop kFilename.length)
    | none => some f.filename
  match name, filename with
  | some name, some filename => some (fileHeader { f with name := name, filename := filename })
  | _, _ => none

/-- `HttpProtocol.cpp:737-770` `HandlePostContent`. -/
def handlePostContent (boundary line : List Char) (f : Form) : Bool × Form :=
  match searchString boundary line with
  | some _ =>
    let r := { f with headerHandled := false }.write f.name f.value
    if r.1 then (true, { r.2 with value := [], filename := [], name := [] }) else r
  | none =>
    (true, { f with value := (if f.value.length > 0 then f.value ++ ['\n'] else f.value) ++ line })

/-- `HttpProtocol.cpp:812-832`: the loop over the lines; `none` inside: memory outside of a text is read. -/
def formLoop (boundary : List Char) : (fuel : Nat) → Form → Option (Bool × Writes)
  | 0, _ => none
  | fuel + 1, f =>
    let l := getLine true f.content
    let f := { f with content := l.rest }
    if l.ok then
      let f := { f with headerHandled := f.headerHandled || decide (l.out.length = 0) }
      if l.out.length > 0 then
        match if f.headerHandled then some (handlePostContent boundary l.out f) else handlePostHeader l.out f with
        | none => none
        | some (true, f) => formLoop boundary fuel f
        | some (false, f) => some (false, f.writes)
      else formLoop boundary fuel f
    else some (true, f.writes)

/-- `HttpProtocol.cpp:782-794`: the boundary without its quotes. -/
def unquote (b : List Char) : List Char :=
  if b.length > 1 then
    if b.head? = some '"' then (if b.getLast? = some '"' then b.tail.dropLast else b) else b
  else b

/-- `HttpProtocol.cpp:772-837` `HandlePostMultipartFormData`: the answer and the calls of `Write`. -/
def postMultipart (contentType content : List Char) : Option (Bool × Writes) :=
  match searchString "boundary=".toList contentType with
  | none => some (false, [])
  | some t =>
    formLoop ("--".toList ++ unquote (t.drop "boundary=".toList.length)) (content.length + 1)
      ⟨content, "Unknown".toList, [], [], false, []⟩

end Verif.HttpFields
