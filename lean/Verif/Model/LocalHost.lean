/-!
# Model of the name and the addresses of the local host

`FileSystem/L1Portability/Environment/Linux/InternetHost.cpp`: `LocalHostInfo`, `GetLocalHostName`, `GetLocalAddress`, `GetLocalAddressAsNumber`,
`GetMACAddress`, `ConvertInterfaceNameToInterfaceAddressNumber`.  An address is its four numbers; its text is the one of `inet_ntoa`, which `sscanf` reads back.
-/
namespace Verif.LocalHost

abbrev Text := List Char

/-- The four numbers of an address. -/
structure Ip where
  a : Nat
  b : Nat
  c : Nat
  d : Nat
deriving DecidableEq, Repr

/-- What the operating system knows of the host: nothing, a name only, a name with an address of another length, or a name with an address. -/
inductive Lookup where
  | unknown
  | nameOnly (name : Text)
  | otherLength (name : Text)
  | complete (name : Text) (ip : Ip)
deriving DecidableEq, Repr

/-- `InternetHost.cpp:88-92`. -/
structure Info where
  name : Option Text
  ip : Option Ip
  done : Bool
  locked : Bool
deriving DecidableEq, Repr

/-- `InternetHost.cpp:103-149` `Init`; `none` when it waits for the lock forever. -/
def init (o : Lookup) (i : Info) : Option Info :=
  if i.done then some i
  else if i.locked then none
  else match o with
    | .unknown => some ⟨none, none, false, true⟩
    | .nameOnly n => some ⟨some n, none, false, true⟩
    | .otherLength n => some ⟨some n, none, false, true⟩
    | .complete n ip => some ⟨some n, some ip, true, false⟩

/-- `InternetHost.cpp:58-61` `Instance` with the constructor (`95-101`): `none` before the first call. -/
def instance_ (o : Lookup) (s : Option Info) : Option Info :=
  match s with
  | some i => some i
  | none => init o ⟨none, none, false, false⟩

/-- `InternetHost.cpp:74-82`: `Instance`, then `Init` again. -/
def get (o₁ o₂ : Lookup) (s : Option Info) : Option Info := (instance_ o₁ s).bind (init o₂)

/-- `InternetHost.cpp:191-192`. -/
def number (ip : Ip) : Nat := (ip.a + 256 * (ip.b + 256 * (ip.c + 256 * ip.d))) % 2 ^ 32

/-- What is asked. -/
inductive Ask where
  | name | address | asNumber
deriving DecidableEq, Repr

inductive Answer where
  | name (n : Option Text)
  | address (ip : Option Ip)
  | asNumber (n : Nat)
deriving DecidableEq, Repr

/-- `InternetHost.cpp:177-196` -/
def answer (i : Info) : Ask → Answer
  | .name => .name i.name
  | .address => .address i.ip
  | .asNumber => .asNumber (match i.ip with | none => 0 | some ip => number ip)

/-- A history of questions, each with what the operating system knows then; `none` when one of them never returns. -/
def run (s : Option Info) : List (Ask × Lookup × Lookup) → Option (List Answer)
  | [] => some []
  | (q, o₁, o₂) :: rest =>
    match get o₁ o₂ s with
    | none => none
    | some i => (run (some i) rest).map (answer i q :: ·)

/-- `IFNAMSIZ` of the operating system. -/
def nameSize : Nat := 16

/-- `InternetHost.cpp:206` and `232`: the bytes of the name that are copied, from the array that holds it; `none` when they are read outside of it. -/
def copyName (array : List Nat) : Option (List Nat) := if nameSize - 1 ≤ array.length then some (array.take (nameSize - 1)) else none

/-- `InternetHost.cpp:197-219` `GetMACAddress`: the descriptors that are open after it, from those before. -/
def mac (opened : Nat) (array : List Nat) : Option Nat := (copyName array).map fun _ => opened + 1

/-- `InternetHost.cpp:221-244`: the descriptors that are open after it. -/
def interfaceAddress (opened : Nat) (array : List Nat) : Option Nat := (copyName array).map fun _ => opened + 1 - 1

end Verif.LocalHost
