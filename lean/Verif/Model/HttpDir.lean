import Verif.Model.CStrings
/-!
# Model of `FileSystem/L4HttpService/HttpDirectoryResource.cpp`: the files that are served

Texts are lists of bytes without the final zero.  The file system is a function that says which names can be opened for
reading.  The writes of the header are assumed to succeed; the bytes of the body are those of the file (C75, C66).
`GetInputCommand` gives the text of the input command `path`, if there is one (C67).
-/
namespace Verif.HttpDir
open Verif.CStrings (compareNoCaseN)

/-- The bytes of a text of the source. -/
def bytes (s : String) : List Nat := s.toList.map Char.toNat

/-- What the client gets: the file (or only its header) with a content type, 404, or nothing at all. -/
inductive Reply where
  | file (name mime : List Nat) (body : Bool)
  | notFound
  | silent
deriving DecidableEq

/-- `HttpDirectoryResource.cpp:153-159`: the name that is opened; `path.Buffer()` ends at the first zero. -/
def fullPath (baseDir : List Nat) (path : Option (List Nat)) : List Nat :=
  baseDir ++ [47] ++ (match path with | some p => p.takeWhile (· ≠ 0) | none => bytes "index.html")

/-- `HttpDirectoryResource.cpp:165-175` `CheckExtension`. -/
def checkExtension (fname ext : List Nat) : Bool :=
  fname.length ≥ ext.length && compareNoCaseN ext.length (fname.drop (fname.length - ext.length) ++ [0]) (ext ++ [0]) == some 0

/-- `HttpDirectoryResource.cpp:183-212`: the content type. -/
def mime (fname : List Nat) : List Nat :=
  if checkExtension fname (bytes ".html") || checkExtension fname (bytes ".htm") then bytes "text/html"
  else if checkExtension fname (bytes ".txt") then bytes "text/plain"
  else if checkExtension fname (bytes ".csv") then bytes "text/csv"
  else if checkExtension fname (bytes ".css") then bytes "text/css"
  else if checkExtension fname (bytes ".gif") then bytes "image/gif"
  else if checkExtension fname (bytes ".jpeg") || checkExtension fname (bytes ".jpg") then bytes "image/jpg"
  else if checkExtension fname (bytes ".jnlp") then bytes "image/jnlp"
  else if checkExtension fname (bytes ".js") then bytes "application/x-javascript"
  else bytes "binary"

/-- `HttpDirectoryResource.cpp:177-259` `ServeFile`: what is sent and the value returned. -/
def serveFile (opens : List Nat → Bool) (replyNotFound head : Bool) (fname : List Nat) : Reply × Bool :=
  if opens fname then (.file fname (mime fname) (!head), true)
  else if replyNotFound then (.notFound, false)
  else (.silent, false)

/-- `HttpDirectoryResource.cpp:152-163` `GetAsText`. -/
def getAsText (opens : List Nat → Bool) (baseDir : List Nat) (replyNotFound head : Bool) (path : Option (List Nat)) : Reply × Bool :=
  serveFile opens replyNotFound head (fullPath baseDir path)

/-- A request: of the page of the browser that has this directory as its only child, or of the directory itself. -/
inductive Request where
  | page (head : Bool) (path : Option (List Nat))
  | direct (head : Bool) (path : Option (List Nat))

/-- A request with the member `replyNotFound` (`HttpDirectoryResource.h:120`).  For the page,
`HttpObjectBrowser.cpp:326-339`: `SetReplyNotFound(false)`, `GetAsText`, and `ReplyNotFound` if it was not handled. -/
def step (opens : List Nat → Bool) (baseDir : List Nat) (replyNotFound : Bool) : Request → Reply × Bool
  | .page head path =>
    let r := getAsText opens baseDir false head path
    (if r.2 then r.1 else .notFound, false)
  | .direct head path => ((getAsText opens baseDir replyNotFound head path).1, replyNotFound)

/-- A history of requests, from the constructor (`HttpDirectoryResource.cpp:48-50`) or a later state. -/
def run (opens : List Nat → Bool) (baseDir : List Nat) : Bool → List Request → List Reply
  | _, [] => []
  | b, q :: qs => (step opens baseDir b q).1 :: run opens baseDir (step opens baseDir b q).2 qs

end Verif.HttpDir
