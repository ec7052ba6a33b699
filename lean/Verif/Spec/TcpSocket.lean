import Verif.Model.TcpSocket
/-!
# How long a socket waits, and in which mode it is
-/
namespace Verif.TcpSocket.Spec
open Verif.TcpSocket

/-- The total of the waits is at most `t`; a wait without limit is not. -/
def within (t : Nat) : List (Option Nat) → Prop
  | [] => True
  | none :: _ => False
  | some w :: rest => w ≤ t ∧ within (t - w) rest

/-- The mode that the socket tells is the one of the operating system. -/
def honest (s : Sock) : Prop := ∀ o ∈ s.os, o.blocking = s.isBlocking

/-- No limit of time is left from an earlier operation. -/
def unlimited (s : Sock) : Prop := ∀ o ∈ s.os, o.rcv = 0 ∧ o.snd = 0

/-- The operating system accepts the changes of the limits. -/
def accepts : Op → Prop
  | .readFor _ _ io | .writeFor _ _ io => io.resetOk = true
  | _ => True

end Verif.TcpSocket.Spec
