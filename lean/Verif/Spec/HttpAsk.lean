import Verif.Model.HttpAsk
/-!
# Where the requests of an HTTP client go
-/
namespace Verif.HttpAsk.Spec
open Verif.HttpAsk

/-- A server: its host, its port and what is asked of it. -/
structure Server where
  host : Text
  port : Nat
  uri : Text

/-- The server after an operation of the owner: what was given last.  A configuration counts up to the first thing that is missing. -/
def told (s : Server) : Op → Server
  | .setHost h => { s with host := h }
  | .setPort p => { s with port := p }
  | .setUri u => { s with uri := u }
  | .setAuthorisation _ => s
  | .initialise none _ _ _ => s
  | .initialise (some h) none _ _ => { s with host := h }
  | .initialise (some h) (some p) none _ => { s with host := h, port := p }
  | .initialise (some h) (some p) (some u) _ => ⟨h, p, u⟩
  | .exchange _ _ => s

/-- A request is sent to a server. -/
def To (s : Server) (r : Request) : Prop := r.conn = some (s.host, s.port) ∧ r.uri = s.uri

/-- The requests of each operation go to the server that was told last. -/
inductive Right : Server → List Op → List (List Request) → Prop
  | nil (s : Server) : Right s [] []
  | cons (s : Server) (op : Op) (ops : List Op) (sent : List Request) (rest : List (List Request)) :
      (∀ r ∈ sent, To s r) → Right (told s op) ops rest → Right s (op :: ops) (sent :: rest)

/-- A reply that does not ask for an authorisation. -/
def plain (a : Attempt) : Prop := ∃ b, a.reply = .body b

end Verif.HttpAsk.Spec
