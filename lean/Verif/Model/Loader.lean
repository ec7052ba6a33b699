import Verif.Model.Messages
import Verif.Model.RefPurge
/-!
# Model of `BareMetal/L6App/Loader.cpp`, `RealTimeLoader.cpp` and `FileSystem/L6App/ConfigurationLoaderTCP.cpp`

The objects are the numbers of the places of a list, with their contents; the first is the `ObjectRegistryDatabase`.  What
the rest of the program does is a parameter with its own state `W`: building the objects of a configuration,
`PostReconfigure`, the messages, the copy of a configuration.  `MoveToRoot` of a configuration and `Insert` of a valid
reference succeed; the messages and the building of objects change no object that exists.
-/
namespace Verif.Loader
open Verif.Msg (Err Err.put Err.cleared fatalErrorBit parametersErrorBit)

/-- `ErrorType.h:52-62` -/
def recoverableErrorBit : Nat := 1
def initialisationErrorBit : Nat := 2

/-- An error with one bit. -/
def error (bit : Nat) : Err := (1 : BitVec 32) <<< bit

/-- `Loader.cpp:373-395`: the four messages. -/
inductive Kind where
  | pre
  | post
  | failed
  | reloaded
deriving DecidableEq

/-- A configuration: the nodes of its root, with their names. -/
abbrev Cfg (T : Type) := List (List Char × T)

/-- The rest of the program. `build c n w` initialises the empty registry; the new objects are the numbers from `n`: the
answer, the objects that are put in the registry, and the contents of the new objects. -/
structure Env (T W : Type) where
  build : Cfg T → Nat → W → (Bool × List Nat × List (List Nat)) × W
  post : List Nat → W → Err × W
  send : Kind → List Nat → W → Err × W
  copy : Cfg T → Bool × Cfg T

/-- The loader and the objects. `sent` are the messages that have been sent. -/
structure St (T W : Type) where
  first : Bool
  reloadLast : Bool
  parsed : Cfg T
  keep : List Nat
  msgs : List Kind
  heap : List (List Nat)
  sent : List Kind
  w : W

variable {T W : Type}

/-- The objects in the registry. -/
def St.registry (s : St T W) : List Nat := (s.heap[0]?).getD []

/-- `Loader.cpp:407-419` `SendConfigurationMessage`. -/
def sendMsg (env : Env T W) (k : Kind) (s : St T W) : Err × St T W :=
  if k ∈ s.msgs then
    let r := env.send k s.registry s.w
    (r.1, { s with sent := s.sent ++ [k], w := r.2 })
  else (0, s)

/-- `Loader.cpp:187-193, 305`: `ObjectRegistryDatabase::Instance()->Purge()`; the fuel is enough (C71). -/
def purgeAll (s : St T W) : St T W :=
  match RefPurge.purge (s.heap.flatten.length + 1) 0 ⟨s.heap, []⟩ with
  | some t => { s with heap := t.heap }
  | none => s

/-- `Loader.cpp:197, 310`: `ObjectRegistryDatabase::Instance()->Initialise`. -/
def buildFrom (env : Env T W) (c : Cfg T) (s : St T W) : Err × St T W :=
  let r := env.build c s.heap.length s.w
  (if r.1.1 then 0 else error initialisationErrorBit, { s with heap := s.heap.set 0 (s.registry ++ r.1.2.1) ++ r.1.2.2, w := r.2 })

/-- `PostReconfigure`. -/
def postReconf (env : Env T W) (s : St T W) : Err × St T W :=
  let r := env.post s.registry s.w
  (r.1, { s with w := r.2 })

/-- `Loader.cpp:214-215, 223-224`: the configuration becomes the last valid one. -/
def store (env : Env T W) (c : Cfg T) (s : St T W) : Err × St T W :=
  let r := env.copy c
  (if r.1 then 0 else error fatalErrorBit, { s with parsed := r.2 })

/-- `if (ret.ErrorsCleared()) { ret = ... }`. -/
def seq (r : Err × St T W) (f : St T W → Err × St T W) : Err × St T W := if r.1.cleared then f r.2 else r

/-- `Loader.cpp:303-313` `ReloadLastValidConfiguration`. -/
def reload (env : Env T W) (s : St T W) : Err × St T W :=
  let s := purgeAll s
  buildFrom env s.parsed s

/-- `Loader.cpp:240-248`: the objects that are kept. -/
def insertKept (s : St T W) : St T W := { s with heap := s.heap.set 0 (s.registry ++ s.keep) }

/-- `Loader.cpp:226-238`: after an error, the last configuration, if it is asked for. Whether it runs again, and whether the
message of the failure is to be sent. -/
def recover (env : Env T W) (r : Err × St T W) : Bool × Bool × St T W :=
  if r.1.cleared then (false, !r.2.reloadLast, r.2)
  else if r.2.reloadLast then
    let t := seq (reload env r.2) (postReconf env)
    (t.1.cleared, !t.1.cleared, t.2)
  else (false, true, r.2)

/-- `Loader.cpp:218-259`: not the first loading. -/
def later (env : Env T W) (c : Cfg T) (r : Err × St T W) : Err × Bool × St T W :=
  let r := seq (seq r (postReconf env)) (store env c)
  let q := recover env r
  let s := insertKept q.2.2
  let s :=
    if r.1.cleared then s
    else if q.2.1 then (sendMsg env .failed s).2
    else if s.reloadLast then (sendMsg env .reloaded s).2 else s
  (r.1, q.1, s)

/-- `Loader.cpp:181-274` `ReconfigureImpl`, which is called with `sendPostMsg` true (`Loader.cpp:178`). -/
def reconfigure (env : Env T W) (c : Cfg T) (s : St T W) : Err × St T W :=
  let r := if s.first then ((0 : Err), s) else sendMsg env .pre s
  let r := seq r fun s => buildFrom env c (purgeAll s)
  let q := if s.first then (let t := seq r (store env c); (t.1, false, t.2)) else later env c r
  let t :=
    if q.1.cleared || q.2.1 then
      let m := sendMsg env .post q.2.2
      (if m.1.cleared && q.2.1 then m.1.put recoverableErrorBit true else m.1, m.2)
    else (q.1, q.2.2)
  (t.1, { t.2 with first := false })

/-- The languages of configurations. -/
inductive Lang where
  | xml
  | json
  | cdb
  | unknown
deriving DecidableEq

/-- `Loader.cpp:144-175` `Reconfigure(StreamI &, StreamString &)`; `parse` is none if the text cannot be parsed. -/
def reconfigureText (env : Env T W) (parse : Lang → List (BitVec 8) → Option (Cfg T)) (lang : Lang) (text : List (BitVec 8)) (s : St T W) : Err × St T W :=
  if lang = .unknown then (error parametersErrorBit, s)
  else
    match parse lang text with
    | none => (error initialisationErrorBit, s)
    | some c => reconfigure env c s

/-- `Loader.cpp:276-293` `Reconfigure(StreamString &, StreamString &, uint32)`; `hash` is none if there is no `Hash` object. -/
def reconfigureHashed (env : Env T W) (parse : Lang → List (BitVec 8) → Option (Cfg T)) (lang : Lang) (hash : Option (List (BitVec 8) → BitVec 32))
    (text : List (BitVec 8)) (offered : BitVec 32) (s : St T W) : Err × St T W :=
  match hash with
  | none => (error fatalErrorBit, s)
  | some h => if h text ≠ offered then (error fatalErrorBit, s) else reconfigureText env parse lang text s

/-- `ConfigurationDatabase::Delete` of a node of the root. -/
def deleteNode (name : List Char) : Cfg T → Option (Cfg T)
  | [] => none
  | (n, t) :: c => if n = name then some c else (deleteNode name c).map ((n, t) :: ·)

/-- `Loader.cpp:126-131`: the nodes of the objects that are kept are removed from the last valid configuration. -/
def stripKept : List (List Char) → Cfg T → Err × Cfg T
  | [], c => (0, c)
  | n :: ns, c =>
    match deleteNode ('+' :: n) c with
    | none => (error parametersErrorBit, c)
    | some c => stripKept ns c

/-- What `Loader.cpp:324-404` `PostInit` finds in `LoaderPostInit`. -/
structure Setup where
  reloadLast : Bool
  keep : List (Nat × List Char)
  msgs : List Kind

/-- `Loader.cpp:113-132` `Configure`, from the first loading to the removal of what is kept (not: the processors, the tokens
and the message of `Start`). -/
def configure (env : Env T W) (parse : Lang → List (BitVec 8) → Option (Cfg T)) (lang : Lang) (setup : List (List Nat) → Err × Setup) (text : List (BitVec 8))
    (s : St T W) : Err × St T W :=
  let r := reconfigureText env parse lang text s
  if r.1.cleared then
    let p := setup r.2.heap
    let s := { r.2 with reloadLast := p.2.reloadLast, keep := p.2.keep.map (·.1), msgs := p.2.msgs }
    if p.1.cleared then
      let t := stripKept (p.2.keep.map (·.2)) ((deleteNode "+LoaderPostInit".toList s.parsed).getD s.parsed)
      (t.1, { s with parsed := t.2 })
    else (p.1, s)
  else r

/-- `RealTimeLoader.cpp:68-94` `PostReconfigure`: the applications in the registry are added to `rtApps` and configured, until
one cannot be. -/
def configureApps {W : Type} (isApp : Nat → Bool) (conf : Nat → W → Bool × W) : List Nat → (found : Bool) → List Nat → W → Err × List Nat × W
  | [], found, apps, w => (if found then 0 else error parametersErrorBit, apps, w)
  | o :: l, found, apps, w =>
    if isApp o then
      let r := conf o w
      if r.1 then configureApps isApp conf l true (apps ++ [o]) r.2
      else (error initialisationErrorBit, apps ++ [o], r.2)
    else configureApps isApp conf l found apps w

/-- `RealTimeLoader.cpp:133-152` `Stop`: the applications of `rtApps` are stopped, until one cannot be. -/
def stopApps {W : Type} (stop : Nat → W → Err × W) : List Nat → W → Err × W
  | [], w => (0, w)
  | o :: l, w =>
    let r := stop o w
    if r.1.cleared then stopApps stop l r.2 else r

/-- `ConfigurationLoaderTCP.cpp:152-163`: the configuration that is received; each element is what one `Read` of at most 1024
bytes gives, with no byte if it fails or if the connection has been closed; `none`: no data comes, and the loop waits. A text
is appended up to its first zero. -/
def receive : List (List (BitVec 8)) → Option (List (BitVec 8))
  | [] => none
  | r :: l =>
    if r.length = 0 then some []
    else
      let t := r.takeWhile (· ≠ 0)
      if r.length = 1024 then (receive l).map (t ++ ·) else some t

end Verif.Loader
