import Verif.Model.LocalHost
/-!
# What the local host is called
-/
namespace Verif.LocalHost.Spec
open Verif.LocalHost

/-- The number of an address as the operating system keeps it: its bytes, the first one the lowest. -/
def value : List Nat → Nat
  | [] => 0
  | x :: xs => x + 256 * value xs

/-- The right answers of a host with a name and an address. -/
def right (name : Text) (ip : Ip) : Ask → Answer
  | .name => .name (some name)
  | .address => .address (some ip)
  | .asNumber => .asNumber (value [ip.a, ip.b, ip.c, ip.d])

/-- The numbers of an address are bytes. -/
def Bytes (ip : Ip) : Prop := ip.a < 256 ∧ ip.b < 256 ∧ ip.c < 256 ∧ ip.d < 256

/-- The array that holds a text of so many bytes, none of them zero, and nothing else. -/
def Holds (array text : List Nat) : Prop := array = text ++ [0] ∧ ∀ x ∈ text, x ≠ 0

end Verif.LocalHost.Spec
