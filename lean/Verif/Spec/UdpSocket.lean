import Verif.Model.UdpSocket
/-!
# What is received and sent with datagrams

Only the records of hosts and of operations are used.
-/
namespace Verif.UdpSocket.Spec
open Verif.UdpSocket

/-- Each read gives one datagram, with its sender, cut at the size asked for. -/
inductive Received : List (Nat × Datagram) → List Datagram → Prop
  | nil : Received [] []
  | cons (size : Nat) (sender : Host) (d : List Byte) (got : List (Nat × Datagram)) (rest : List Datagram) :
      Received got rest → Received ((size, sender, d.take size) :: got) ((sender, d) :: rest)

/-- The reads ask for some byte. -/
def asks : Op → Prop
  | .read size _ | .readFor size _ _ => 0 < size
  | _ => True

/-- The address of a connection is found. -/
def found : Op → Prop
  | .connect numeric byName _ => numeric ≠ none ∨ byName ≠ none
  | _ => True

/-- What is sent in a history that begins with this destination: one datagram for each write that the operating system does, to the last destination. -/
def sends (to : Host) : List Op → List Datagram
  | [] => []
  | .write data ok :: ops => (if ok then [(to, data)] else []) ++ sends to ops
  | .writeFor data t io :: ops => (if (t = none ∨ io.setOk = true) ∧ io.ok = true then [(to, data)] else []) ++ sends to ops
  | .connect numeric byName port :: ops =>
    match numeric, byName with
    | some a, _ => sends ⟨a, port⟩ ops
    | none, some a => sends ⟨a, port⟩ ops
    | none, none => sends to ops
  | .setDestination h :: ops => sends h ops
  | .peek _ _ :: ops => sends to ops
  | .read _ _ :: ops => sends to ops
  | .readFor _ _ _ :: ops => sends to ops

/-- The total of the waits is at most `t`; a wait without limit is not. -/
def within (t : Nat) : List (Option Nat) → Prop
  | [] => True
  | none :: _ => False
  | some w :: rest => w ≤ t ∧ within (t - w) rest

end Verif.UdpSocket.Spec
