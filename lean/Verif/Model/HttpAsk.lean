/-!
# Model of the exchanges of an HTTP client

`Source/Core/FileSystem/L4HttpService/HttpClient.cpp`: `Initialise`, the setters, `HttpExchange`, `AutenticationProcedure`, `Connect` and
`SearchKey`.  What the socket and the protocol answer comes with each request.  Texts are lists of characters; the array that holds one ends after it.
-/
namespace Verif.HttpAsk

abbrev Text := List Char

/-- `HttpClient.h`: the members; `conn` is the host and the port to which the socket is connected and `header` the
`Authorization` among the output options of the protocol, which stay from one request to the next (`HttpProtocol.cpp:416-427`). -/
structure Client where
  host : Text
  port : Nat
  uri : Text
  authorisation : Text
  key : Text
  reconnect : Bool
  conn : Option (Text × Nat)
  header : Text
deriving DecidableEq, Repr

/-- `HttpClient.cpp:75-81` -/
def new : Client := ⟨[], 0, [], [], [], true, none, []⟩

/-- `HttpClient.cpp:140-145` `SetServerAddress` -/
def setHost (h : Text) (c : Client) : Client := if c.host ≠ h then { c with host := h, reconnect := true } else c

/-- `HttpClient.cpp:147-152` `SetServerPort` -/
def setPort (p : Nat) (c : Client) : Client := if c.port ≠ p then { c with port := p, reconnect := true } else c

/-- `HttpClient.cpp:154-158` `SetServerUri` -/
def setUri (u : Text) (c : Client) : Client := if c.uri ≠ u then { c with uri := u } else c

/-- `HttpClient.cpp:160-163` `SetAuthorisation` -/
def setAuthorisation (a : Text) (c : Client) : Client := { c with authorisation := a, key := a }

/-- `HttpClient.cpp:93-138` `Initialise`: what is in the configuration (`none` is missing). -/
def initialise (host : Option Text) (port : Option Nat) (uri : Option Text) (auth : Option Text) (c : Client) : Client × Bool :=
  match host with
  | none => (c, false)
  | some h =>
    let c1 := if c.host ≠ h then { c with host := h, reconnect := true } else c
    match port with
    | none => (c1, false)
    | some p =>
      let c2 := if c1.port ≠ p then { c1 with port := p, reconnect := true } else c1
      match uri with
      | none => (c2, false)
      | some u =>
        let c3 := if c2.uri ≠ u then { c2 with uri := u, reconnect := true } else c2
        ({ c3 with authorisation := auth.getD [] }, true)

/-- What the server asks for: the authorisation itself, a digest (with the key that is made for it, if it can be made), or something else. -/
inductive Scheme where
  | basic
  | digest (key : Option Text)
  | other
deriving DecidableEq, Repr

/-- A reply: it asks for an authorisation or it has a body (`none` when it cannot be read). -/
inductive Reply where
  | unauthorised (discarded : Bool) (scheme : Scheme)
  | body (b : Option Text)
deriving DecidableEq, Repr

/-- What happens in a request: whether the connection is alive before it, whether a new one is made, the header is sent, the reply comes, it comes in time, what
it is and whether the server keeps the connection. -/
structure Attempt where
  alive : Bool
  connOk : Bool
  sendOk : Bool
  headerOk : Bool
  inTime : Bool
  reply : Reply
  keep : Bool
deriving DecidableEq, Repr

/-- A request that was sent: on which connection, for what and with which key. -/
structure Request where
  conn : Option (Text × Nat)
  uri : Text
  key : Text
deriving DecidableEq, Repr

/-- What an exchange gives. -/
structure Result where
  client : Client
  answer : Bool
  body : Text
  sent : List Request
deriving DecidableEq, Repr

/-- `HttpClient.cpp:181-221` `AutenticationProcedure`: the new key, or a failure. -/
def procedure (discarded : Bool) (scheme : Scheme) (c : Client) : Option Text :=
  if discarded then
    match scheme with
    | .basic => some c.authorisation
    | .digest k => k
    | .other => none
  else none

/-- `HttpClient.cpp:316-318`: the connection after a reply. -/
def after (keep : Bool) (c : Client) : Client := if keep then c else { c with conn := none }

/-- `HttpClient.cpp:254-269`: the key is put among the options, if there is one; they are taken to be written (in the code a failure makes the exchange fail). -/
def authorise (c : Client) : Client := if c.key.length > 0 then { c with header := c.key } else c

/-- `HttpClient.cpp:223-323` `HttpExchange` with `Connect` (325-335); `isReply`: the command is one of a reply.  `none`: it goes on after all these requests. -/
def exchange (isReply : Bool) : List Attempt → Client → Option Result
  | [], _ => none
  | a :: as, c =>
    let re := c.reconnect || !(c.conn.isSome && a.alive)
    if isReply then some ⟨{ c with reconnect := re }, false, [], []⟩
    else
      let c0 : Client := if re then { c with conn := if a.connOk then some (c.host, c.port) else none, reconnect := false } else c
      if re && !a.connOk then some ⟨c0, false, [], []⟩
      else
        let c1 := authorise c0
        if !a.sendOk then some ⟨c1, false, [], []⟩
        else
        let req : Request := ⟨c1.conn, c1.uri, c1.header⟩
        if !(a.headerOk && a.inTime) then some ⟨c1, false, [], [req]⟩
        else match a.reply with
          | .body b => some ⟨after a.keep c1, b.isSome, b.getD [], [req]⟩
          | .unauthorised discarded scheme =>
            match procedure discarded scheme c1 with
            | none => some ⟨after a.keep c1, false, [], [req]⟩
            | some k =>
              if a.keep then (exchange isReply as { c1 with key := k }).map fun r => { r with sent := req :: r.sent }
              else some ⟨after false { c1 with key := k }, true, [], [req]⟩

/-- What the owner does with a client. -/
inductive Op where
  | setHost (h : Text)
  | setPort (p : Nat)
  | setUri (u : Text)
  | setAuthorisation (a : Text)
  | initialise (host : Option Text) (port : Option Nat) (uri : Option Text) (auth : Option Text)
  | exchange (isReply : Bool) (as : List Attempt)

/-- The client after an operation, and the requests that it sent; `none` when an exchange goes on. -/
def step (c : Client) : Op → Option (Client × List Request)
  | .setHost h => some (setHost h c, [])
  | .setPort p => some (setPort p c, [])
  | .setUri u => some (setUri u c, [])
  | .setAuthorisation a => some (setAuthorisation a c, [])
  | .initialise h p u a => some ((initialise h p u a c).1, [])
  | .exchange b as => (exchange b as c).map fun r => (r.client, r.sent)

/-- The requests of each operation of a history. -/
def run (c : Client) : List Op → Option (Client × List (List Request))
  | [] => some (c, [])
  | op :: ops =>
    match step c op with
    | none => none
    | some (c', sent) => (run c' ops).map fun r => (r.1, sent :: r.2)

/-- `HttpClient.cpp:52-56` with `StringHelper::SearchString` (`StringHelper.h:204`): what follows the first place of a name. -/
def search (name : Text) : Text → Option Text
  | [] => if name = [] then some [] else none
  | x :: xs => if name.isPrefixOf (x :: xs) then some ((x :: xs).drop name.length) else search name xs

/-- `HttpClient.cpp:60-63`: the value up to the quote; `none` when the text ends before, and the loop goes on beyond it. -/
def value : Text → Option Text
  | [] => none
  | x :: xs => if x = '"' then some [] else (value xs).map (x :: ·)

/-- `HttpClient.cpp:43-69` `SearchKey`: `none` when it reads beyond the text, `some none` when it answers false. -/
def searchKey (data name : Text) : Option (Option Text) :=
  match search name data with
  | none => some none
  | some ('=' :: '"' :: rest) => (value rest).map some
  | some _ => some none

end Verif.HttpAsk
