import Verif.Model.RefContainer
/-!
# Model of `BareMetal/L4Messages/MessageI.cpp` (`SendMessage`) and of the flags of `Message.cpp`

The object registry is a tree of objects (`RefC.Obj`).  What the destination does with the message is C26.  The number of
references to each object is given; `none` is an object that was already destroyed.  `none` as the result of a function is
undefined behaviour, or fuel exhausted.
-/
namespace Verif.SendMsg
open Verif.RefC (Obj findPath find refFilter)

/-- `Message.h`: the destination, the sender (an address) and the three flags. -/
structure Msg where
  dest : List Char
  sender : Option Nat
  expectsReply : Bool
  indirect : Bool
  isReply : Bool
deriving DecidableEq

/-- The registry, which objects are a `MessageI`, and how many references there are to each object. -/
structure World where
  db : List Obj
  isMsg : Nat → Bool
  refs : Nat → Option Nat
  fuel : Nat

/-- The errors that `SendMessage` sets itself, or the delivery to an object, whose answer is the value returned. -/
inductive Out where
  | parametersError
  | communicationError
  | unsupportedFeature
  | delivered (id : Nat)
deriving DecidableEq

/-- Outcome: what is returned or to whom it is delivered, the message, and the object that was destroyed, if any. -/
structure Sent where
  out : Out
  msg : Option Msg
  destroyed : Option Nat
deriving DecidableEq

/-- `MessageI.cpp:60-82` `FindDestination`, with `ObjectRegistryDatabase.cpp:110-134`: the object, whatever it is. -/
def findDestination (w : World) (path : List Char) : Option (Option Obj) := findPath w.fuel path false w.db

/-- `MessageI.cpp:109-118`: the object of the registry that sent the message. -/
def findSender (w : World) (sender : Option Nat) : Option (Option Obj) :=
  (find w.fuel (refFilter 1 true false false false sender) [] w.db).map fun r => r.2.1[0]?

/-- `MessageI.cpp:142-154`: delivery. -/
def deliver (w : World) (m : Msg) (destroyed : Option Nat) (o : Option Obj) : Sent :=
  match o with
  | some o => ⟨if w.isMsg o.id then .delivered o.id else .unsupportedFeature, some m, destroyed⟩
  | none => ⟨.unsupportedFeature, some m, destroyed⟩

/-- `MessageI.cpp:109-119`: the reference to the sender that lives during the search: the count of a destroyed object is
undefined behaviour, and an object with no other reference is destroyed with it (`Reference.cpp:79-84,100-102`). -/
def borrowed (w : World) : Option Nat → Option (Option Nat)
  | none => some none
  | some s => (w.refs s).map fun n => if n = 0 then some s else none

/-- `MessageI.cpp:84-157` `SendMessage`.  An invalid reference to a message is `none`. -/
def send (w : World) (message : Option Msg) (sender : Option Nat) : Option Sent :=
  match message with
  | none => some ⟨.parametersError, none, none⟩
  | some m =>
    if m.isReply then
      if !m.indirect then some ⟨.communicationError, some m, none⟩
      else
        (borrowed w m.sender).bind fun d =>
        (findSender w m.sender).map fun o => deliver w m d o
    else
      (findDestination w m.dest).map fun o =>
      match sender with
      | some s => deliver w { m with sender := some s } none o
      | none => if m.expectsReply then ⟨.parametersError, some m, none⟩ else deliver w m none o

/-- `Message.cpp:122-135`: the flags from the text of `Mode`; without it they are all false. -/
def flags (mode : Option (List Char)) (m : Msg) : Msg :=
  match mode with
  | none => { m with expectsReply := false, indirect := false, isReply := false }
  | some s =>
    let ind := decide (s = "ExpectsIndirectReply".toList)
    { m with expectsReply := if ind then true else decide (s = "ExpectsReply".toList), indirect := ind, isReply := false }

end Verif.SendMsg
