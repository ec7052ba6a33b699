import Verif.Model.Messages
/-!
# Model of the methods registered in a class and of the messages that call them

`BareMetal/L2Objects/ClassMethodCallerT.h`, `ClassMethodInterfaceMapper.h`, `ClassMethodCaller.cpp`,
`ClassRegistryItem.cpp` (`FindMethod`, `AddMethod`), `Object.cpp` (`CallRegisteredMethod`) and
`BareMetal/L4Messages/RegisteredMethodsMessageFilter.cpp`.

`O` is the state of the object, `P` a structured data with the calls `Read` and `Write`, `A` a value of a parameter and `S`
a stream.  A method is any function of the object and of its parameters.  The methods that are found are those of the class
of the object, so that the `dynamic_cast` to this class is not null.  `none` as a result is undefined behaviour.
-/
namespace Verif.MethodCall
open Verif.Msg (Err Err.put Err.cleared fatalErrorBit parametersErrorBit unsupportedFeatureBit)

/-- How a parameter of a method is declared: `T`, `const T &` or `T &`. -/
inductive Mode where
  | value
  | constRef
  | ref
deriving DecidableEq

/-- `StructuredDataI.h` `Read` and `Write` of the names `param1` to `param4`, numbered from 0.  Reading converts to the type
of the parameter of that number in the method. -/
structure Data (P A : Type) where
  read : Nat → P → Option A
  write : Nat → A → P → Bool × P

/-- An object in a container: a structured data, a stream, or anything else. -/
inductive Entry (P S : Type) where
  | sdata (p : P)
  | stream (s : S)
  | other
deriving DecidableEq

/-- `ClassMethodCallerT.h:72-516`: the six forms of methods. The values returned are the error, the parameters as the
method leaves them, and the object. -/
inductive Method (O P A S : Type) where
  | void (f : O → Err × O)
  | values (modes : List Mode) (f : O → List A → Err × List A × O)
  | sdata (f : O → P → Err × P × O)
  | container (f : O → List (Entry P S) → Err × List (Entry P S) × O)
  | stream (f : O → S → Err × S × O)

/-- What is passed in a call: nothing, a container, a structured data (with: it is an `Object`, and the number of
references to it) or a stream. -/
inductive Arg (P S : Type) where
  | nothing
  | container (c : List (Entry P S))
  | sdata (p : P) (isObject : Bool) (refs : Nat)
  | stream (s : S)
deriving DecidableEq

/-- `ErrorType.h:57-190`: an error with one bit. -/
def error (bit : Nat) : Err := (1 : BitVec 32) <<< bit

/-- `ClassMethodCallerT.h:49-52`: `PARAM1_IS_REFERENCE` to `PARAM4_IS_REFERENCE`. -/
def bit : Nat → Nat
  | 0 => 0x1000
  | 1 => 0x0100
  | 2 => 0x0010
  | _ => 0x0001

/-- `ClassMethodInterfaceMapper.h:811-1017`: the mask that is built by the constructors, from the last parameter to the
first; only a parameter `T &` adds its bit. -/
def mask : (i : Nat) → List Mode → Nat
  | _, [] => 0
  | i, m :: ms => mask (i + 1) ms ||| (if m = .ref then bit i else 0)

/-- `ClassMethodCallerT.h:548-567, 637-651, 712-721`: the parameters are read one after the other. -/
def readAll {P A : Type} (d : Data P A) (p : P) : (i n : Nat) → Option (List A)
  | _, 0 => some []
  | i, n + 1 =>
    match d.read i p with
    | none => none
    | some a => (readAll d p (i + 1) n).map (a :: ·)

/-- `ClassMethodCallerT.h:571-598, 655-675, 725-738`: the parameters whose bit is set are written, until one cannot be. -/
def writeAll {P A : Type} (d : Data P A) (mask : Nat) : (i : Nat) → List A → Err × P → Err × P
  | _, [], r => r
  | i, a :: as, (err, p) =>
    if err.cleared then
      if mask &&& bit i = bit i then
        let w := d.write i a p
        writeAll d mask (i + 1) as (if w.1 then err else err.put parametersErrorBit true, w.2)
      else writeAll d mask (i + 1) as (err, p)
    else writeAll d mask (i + 1) as (err, p)

variable {O P A S : Type}

/-- `ClassMethodCallerT.h:537-601, 627-677, 702-740` `Call(object, StructuredDataI &)`, for two to four parameters. -/
def callValues (d : Data P A) (modes : List Mode) (f : O → List A → Err × List A × O) (o : O) (p : P) : Err × P × O :=
  match readAll d p 0 modes.length with
  | none => (error parametersErrorBit, p, o)
  | some as =>
    let r := f o as
    let w := writeAll d (mask 0 modes) 0 r.2.1 (r.1, p)
    (w.1, w.2, r.2.2)

/-- `ClassMethodCallerT.h:767-790` `Call(object, StructuredDataI &)`, for one parameter: the answer of `Write`, negated, is
converted to an `ErrorType` (`ErrorType.h:539-542`: `true` is no error). -/
def callOne (d : Data P A) (modes : List Mode) (f : O → List A → Err × List A × O) (o : O) (p : P) : Err × P × O :=
  match readAll d p 0 modes.length with
  | none => (error parametersErrorBit, p, o)
  | some as =>
    let r := f o as
    if r.1.cleared then
      match r.2.1 with
      | a :: _ =>
        if mask 0 modes ≠ 0 then
          let w := d.write 0 a p
          let notWritten := !w.1
          (if notWritten then 0 else error fatalErrorBit, w.2, r.2.2)
        else (r.1, p, r.2.2)
      | [] => (r.1, p, r.2.2)
    else (r.1, p, r.2.2)

/-- The two forms of `Call(object, StructuredDataI &)` for methods with parameters. -/
def callParams (d : Data P A) (modes : List Mode) (f : O → List A → Err × List A × O) (o : O) (p : P) : Err × P × O :=
  if modes.length = 1 then callOne d modes f o p else callValues d modes f o p

/-- `ReferenceContainer.cpp:90-105` `Get(0)` as a `ReferenceT<StructuredDataI>`. -/
def firstData (c : List (Entry P S)) : Option P :=
  match c with
  | .sdata p :: _ => some p
  | _ => none

/-- The container after the first entry has changed. -/
def setFirst (e : Entry P S) : List (Entry P S) → List (Entry P S)
  | [] => []
  | _ :: c => e :: c

/-- `ClassMethodCallerT.h:603-615, 679-690, 742-754, 792-804, 821-823, 852-863, 897-900, 912-918`
`Call(object, ReferenceContainer &)`. -/
def callContainer (d : Data P A) (m : Method O P A S) (o : O) (c : List (Entry P S)) : Option (Err × List (Entry P S) × O) :=
  match m with
  | .void f => let r := f o; some (r.1, c, r.2)
  | .values modes f =>
    match firstData c with
    | none => some (error parametersErrorBit, c, o)
    | some p => let r := callParams d modes f o p; some (r.1, setFirst (.sdata r.2.1) c, r.2.2)
  | .sdata f =>
    match firstData c with
    | none => some (error parametersErrorBit, c, o)
    | some p => let r := f o p; some (r.1, setFirst (.sdata r.2.1) c, r.2.2)
  | .container f => some (f o c)
  | .stream f =>
    match c with
    | .stream s :: _ => let r := f o s; some (r.1, setFirst (.stream r.2.1) c, r.2.2)
    | _ => none

/-- `ClassMethodCallerT.h:816-834, 846-849, 876-894, 921-925` and, for the forms that a method does not have,
`ClassMethodCaller.cpp:51-68`. A structured data to which nothing refers is deleted with the reference to it
(`ClassMethodCallerT.h:881`). -/
def call (d : Data P A) (m : Method O P A S) (o : O) : Arg P S → Option (Err × Arg P S × O)
  | .nothing =>
    match m with
    | .void f => let r := f o; some (r.1, .nothing, r.2)
    | _ => some (error parametersErrorBit, .nothing, o)
  | .container c => (callContainer d m o c).map fun r => (r.1, .container r.2.1, r.2.2)
  | .sdata p isObject refs =>
    match m with
    | .void f => let r := f o; some (r.1, .sdata p isObject refs, r.2)
    | .values modes f => let r := callParams d modes f o p; some (r.1, .sdata r.2.1 isObject refs, r.2.2)
    | .sdata f => let r := f o p; some (r.1, .sdata r.2.1 isObject refs, r.2.2)
    | .container f =>
      if isObject then
        if refs = 0 then none
        else
          let r := f o [.sdata p]
          some (r.1, .sdata ((firstData r.2.1).getD p) isObject refs, r.2.2)
      else some (error parametersErrorBit, .sdata p isObject refs, o)
    | .stream _ => some (error parametersErrorBit, .sdata p isObject refs, o)
  | .stream s =>
    match m with
    | .void f => let r := f o; some (r.1, .stream s, r.2)
    | .stream f => let r := f o s; some (r.1, .stream r.2.1, r.2.2)
    | _ => some (error parametersErrorBit, .stream s, o)

/-- The methods of a class, in the order of their registration (`ClassRegistryItem.cpp:155-159`: `ListAdd` puts them at the
end). -/
abbrev Class (O P A S : Type) := List (List Char × Method O P A S)

/-- `ClassRegistryItem.cpp:137-153` `FindMethod`. -/
def findMethod (name : List Char) : Class O P A S → Option (Method O P A S)
  | [] => none
  | (n, m) :: c => if n = name then some m else findMethod name c

/-- `Object.cpp:50-132`: the four `CallRegisteredMethod`; `cls` is none for an object without a class. -/
def callRegistered (d : Data P A) (cls : Option (Class O P A S)) (name : List Char) (o : O) (a : Arg P S) :
    Option (Err × Arg P S × O) :=
  match cls with
  | none => some (error fatalErrorBit, a, o)
  | some c =>
    match findMethod name c with
    | none => some (error unsupportedFeatureBit, a, o)
    | some m => call d m o a

/-- `Message.h`: the function, the flags and the parameters. -/
structure Message (P S : Type) where
  function : List Char
  isReply : Bool
  expectsReply : Bool
  indirect : Bool
  params : List (Entry P S)
deriving DecidableEq

/-- What a filter does with a message: the answer, the message, the object, and whether the message was sent back. -/
structure Consumed (O P S : Type) where
  err : Err
  msg : Message P S
  obj : O
  sent : Bool

/-- `RegisteredMethodsMessageFilter.cpp:59-93` `ConsumeMessage`; `dest` is the class and the state of the destination, if it
is set; `send` is the answer of `MessageI::SendMessage` (C87). An invalid message is dereferenced. -/
def consume (d : Data P A) (send : Message P S → Err) (isSet : Bool) (cls : Option (Class O P A S)) (o : O)
    (message : Option (Message P S)) : Option (Consumed O P S) :=
  match message with
  | none => none
  | some m =>
    if isSet && !m.isReply then
      match callRegistered d cls m.function o (.container m.params) with
      | some (err, .container c, o') =>
        let m := { m with params := c }
        if err.cleared then
          if m.expectsReply then
            let m := { m with isReply := true }
            if m.indirect then some ⟨send m, m, o', true⟩ else some ⟨err, m, o', false⟩
          else some ⟨err, m, o', false⟩
        else some ⟨err, m, o', false⟩
      | _ => none
    else some ⟨error unsupportedFeatureBit, m, o, false⟩

end Verif.MethodCall
