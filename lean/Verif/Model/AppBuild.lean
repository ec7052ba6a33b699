/-!
# Model of the resolution of signals of a real-time application

`BareMetal/L5GAMs/RealTimeApplicationConfigurationBuilder.cpp`: `ResolveDataSources` (with `AddSignalToDataSource`,
`CheckTypeCompatibility`, `ResolveConsumersAndProducers`, `ResolveFunctionSignalsMemorySize`, `ResolveFunctionsMemory`),
`VerifyDataSourcesSignals` and `VerifyConsumersAndProducers` (with `BuildProducersRanges`, `CheckProducersRanges`).

Simplifications.  The input is what `FlattenSignalsDatabases` and `ResolveStates` leave in the two data bases, as records and
not as trees: functions with their states and signals, data sources with the signals they declare.  Names are lists of tokens
(the text between the points).  Numbers are compared as numbers, while the code compares their texts.  Default values
(`WriteDefault`), data sources without the node `Signals`, the signals of the timing data source (`AddTimingSignals`) and the copy of the memory of the functions to the
data sources (`AssignFunctionsMemoryToDataSource`, brokers; see `Model/FnMemory.lean`), which refuses functions without signals, are not modelled
here.
-/
namespace Verif.AppBuild

abbrev Name := List String

/-- A signal of a function, after `FlattenSignal` (lines 868-893).  `fullType` is empty if it is not there. -/
structure FSig where
  name : Name
  alias : Option Name
  ds : String
  ty : Option String
  fullType : List String
  dims : Option Nat
  elems : Option Nat
  dflt : Option String
  member : Option Nat
  ranges : Option (List (Nat × Nat))
  samples : Option Nat
deriving DecidableEq, Repr

/-- An element of the lists `GAMProducers`/`GAMConsumers` and `SignalProducers`/`SignalConsumers` of a state (lines 2106-2179):
the function and the signal, by number. -/
structure Use where
  state : String
  producer : Bool
  fn : Nat
  sig : Nat
deriving DecidableEq, Repr

/-- A signal of a data source. -/
structure DSig where
  name : Name
  ty : Option String
  fullType : List String
  dims : Option Nat
  elems : Option Nat
  dflt : Option String
  member : Option Nat
  uses : List Use
deriving DecidableEq, Repr

/-- A data source.  `stray`: a node `States` was created among its signals. -/
structure DS where
  name : String
  locked : Bool
  timing : Bool
  sigs : List DSig
  stray : Bool
deriving DecidableEq, Repr

/-- A function: the states in which it is executed and its signals. -/
structure Fn where
  name : String
  states : List String
  ins : List FSig
  outs : List FSig
deriving DecidableEq, Repr

/-! ## One signal of a function and its data source -/

/-- Lines 3188-3214: the loop over the tokens of names and types. -/
def compatLoop : (n₁ n₂ ft ot : List String) → Bool
  | [], _, _, _ => true
  | _ :: _, [], _, _ => true
  | a :: n₁, b :: n₂, ft, ot =>
    if a = b then
      match ft, ot with
      | [], _ => false
      | _ :: _, [] => false
      | s :: ft, t :: ot =>
        if s ≠ "Node" then (if s = t ∨ t = "Node" then compatLoop n₁ n₂ ft ot else false) else compatLoop n₁ n₂ ft ot
    else true

/-- Lines 3165-3217 `CheckTypeCompatibility`. -/
def compatible (ft ot n₁ n₂ : List String) : Bool := if ft = ot then true else compatLoop n₁ n₂ ft ot

/-- Lines 1197-1243, one round: a property in the function and in the data source; the answer and the values after it. -/
def mergeProp {α : Type} [DecidableEq α] (f d : Option α) : Bool × Option α × Option α :=
  match f, d with
  | some x, some y => (decide (x = y), f, d)
  | some x, none => (true, f, some x)
  | none, some y => (true, some y, d)
  | none, none => (true, none, none)

/-- Lines 1258-1271: the answer and `replace`. -/
def replaceLoop : (d f : List String) → Bool × Bool
  | [], _ => (true, false)
  | _ :: _, [] => (false, false)
  | a :: d, b :: f => if a = "Node" ∧ b = "Node" then replaceLoop d f else (true, decide (a = "Node" ∧ b ≠ "Node"))

/-- Lines 1245-1284: the full type of the signal of the data source. -/
def mergeFull (f d : List String) : Bool × List String :=
  if d = [] then (true, f)
  else if f = [] then (true, d)
  else
    match replaceLoop d f with
    | (false, _) => (false, d)
    | (true, true) => (true, f)
    | (true, false) => (true, d)

/-- Lines 1193-1285: the properties one by one until one is different. -/
def mergeProps (f : FSig) (d : DSig) : Bool × FSig × DSig :=
  let t := mergeProp f.ty d.ty
  let f := { f with ty := t.2.1 }
  let d := { d with ty := t.2.2 }
  if t.1 = false then (false, f, d)
  else
    let t := mergeProp f.dims d.dims
    let f := { f with dims := t.2.1 }
    let d := { d with dims := t.2.2 }
    if t.1 = false then (false, f, d)
    else
      let t := mergeProp f.elems d.elems
      let f := { f with elems := t.2.1 }
      let d := { d with elems := t.2.2 }
      if t.1 = false then (false, f, d)
      else
        let t := mergeProp f.dflt d.dflt
        let f := { f with dflt := t.2.1 }
        let d := { d with dflt := t.2.2 }
        if t.1 = false then (false, f, d)
        else
          let t := mergeProp f.member d.member
          let f := { f with member := t.2.1 }
          let d := { d with member := t.2.2 }
          if t.1 = false then (false, f, d)
          else
            let t := mergeFull f.fullType d.fullType
            (t.1, f, { d with fullType := t.2 })

/-- Lines 1081-1092: the name of the signal in the data source. -/
def FSig.target (f : FSig) : Name :=
  match f.alias with
  | none => f.name
  | some [] => f.name
  | some a => a

/-- The number of the signal with a name (`dataSourcesSignalIndexCache`, lines 487-495, 1125, 1190). -/
def findSig (name : Name) : List DSig → Option Nat
  | [] => none
  | d :: ds => if d.name = name then some 0 else (findSig name ds).map (· + 1)

/-- Lines 1071-1287 `AddSignalToDataSource`: the answer, the data source, the signal, and the node where the data base of the data
sources is left (`none`: the parent of the signals). -/
def addSignal (f : FSig) (s : DS) : Bool × FSig × DS × Option Nat :=
  match findSig f.target s.sigs with
  | some i =>
    match s.sigs[i]? with
    | none => (false, f, s, none)
    | some d =>
      if f.fullType ≠ [] ∧ d.fullType ≠ [] ∧ compatible f.fullType d.fullType f.target d.name = false then (false, f, s, some i)
      else
        let r := mergeProps f d
        (r.1, r.2.1, { s with sigs := s.sigs.set i r.2.2 }, some i)
  | none =>
    if s.locked then (false, f, s, none)
    else
      let r := mergeProps f ⟨f.target, none, [], none, none, none, none, []⟩
      (r.1, r.2.1, { s with sigs := s.sigs ++ [r.2.2] }, some s.sigs.length)

/-- Lines 1001-1012: the default number of elements (which overwrites the answer of `AddSignalToDataSource`) and of dimensions. -/
def defaults (ok : Bool) (f : FSig) : Bool × FSig :=
  let r := if f.elems = none then (true, { f with elems := some 1 }) else (ok, f)
  if r.1 = true ∧ r.2.dims = none then (true, { r.2 with dims := some 0 }) else r

/-- Lines 2088-2186 `ResolveConsumersAndProducers`. -/
def addUses (s : DS) (at_ : Option Nat) (us : List Use) : DS :=
  if us = [] then s
  else
    match at_ with
    | none => { s with stray := true }
    | some i => { s with sigs := s.sigs.modify i fun d => { d with uses := d.uses ++ us } }

/-! ## Memory -/

/-- Sizes of the basic types (`TypeDescriptor::GetTypeDescriptorFromTypeName`): bits, `none` if the name is not of one. -/
abbrev Types := String → Option Nat

/-- Lines 2515-2538: size and offset of each range, in 32 bits. -/
def byteOffsets (bits elems : Nat) : List (Nat × Nat) → Option (List (Nat × Nat))
  | [] => some []
  | (lo, hi) :: rs =>
    if lo > hi then none
    else if hi ≥ elems then none
    else (byteOffsets bits elems rs).map fun l => (lo * bits % 2 ^ 32 / 8, (hi - lo + 1) * bits % 2 ^ 32 / 8) :: l

/-- A signal of a function when all is resolved: `offsets` and sizes of what it uses of the signal of the data source, and where
it is in the memory of the function. -/
structure RSig where
  sig : FSig
  byteSize : Nat
  offsets : List (Nat × Nat)
  samples : Nat
  memory : Nat
deriving DecidableEq, Repr

/-- Lines 2471-2565 `ResolveFunctionSignalsMemorySize` and 2595-2641 of `ResolveFunctionsMemory`. -/
def memorySize (bits : Types) (f : FSig) (memory : Nat) : Option RSig :=
  match f.elems, f.ty with
  | some elems, some ty =>
    match bits ty with
    | none => none
    | some b =>
      let offs : Option (Nat × List (Nat × Nat)) :=
        match f.ranges with
        | none => let size := elems * b % 2 ^ 32 / 8
                  some (size, [(0, size)])
        | some [] => some (0, [(0, 0)])
        | some rs => (byteOffsets b elems rs).map fun l => ((l.map Prod.snd).foldl (fun a x => (a + x) % 2 ^ 32) 0, l)
      match offs with
      | none => none
      | some (size, l) =>
        match f.samples with
        | some 0 => none
        | some (n + 1) => some ⟨f, size, l, n + 1, memory⟩
        | none => some ⟨f, size, l, 1, memory⟩
  | _, _ => none

/-! ## All the functions -/

/-- Lines 962-1037, one round: a signal of the function number `fn` in the states `states`. -/
def resolveSig (bits : Types) (states : List String) (producer : Bool) (fn sig : Nat) (f : FSig) (memory : Nat) :
    List DS → Option (RSig × List DS)
  | [] => none
  | s :: ss =>
    if s.name = f.ds then
      let r := addSignal f s
      let q := defaults r.1 r.2.1
      if q.1 = false then none
      else
        (memorySize bits q.2 memory).map fun m =>
          (m, addUses r.2.2.1 r.2.2.2 (states.map fun st => ⟨st, producer, fn, sig⟩) :: ss)
    else (resolveSig bits states producer fn sig f memory ss).map fun r => (r.1, s :: r.2)

/-- Lines 955-1042: the signals of one direction of a function; `memory` is `allocatedByteSize`. -/
def resolveSigs (bits : Types) (states : List String) (producer : Bool) (fn : Nat) :
    (sig memory : Nat) → List FSig → List DS → Option (List RSig × Nat × List DS)
  | _, memory, [], ss => some ([], memory, ss)
  | sig, memory, f :: fs, ss =>
    match resolveSig bits states producer fn sig f memory ss with
    | none => none
    | some (r, ss) =>
      match resolveSigs bits states producer fn (sig + 1) ((memory + r.byteSize * r.samples % 2 ^ 32) % 2 ^ 32) fs ss with
      | none => none
      | some (rs, total, ss) => some (r :: rs, total, ss)

/-- A function when its signals are resolved. -/
structure RFn where
  fn : Fn
  ins : List RSig
  inSize : Nat
  outs : List RSig
  outSize : Nat
deriving DecidableEq, Repr

/-- Lines 909-1063 `ResolveDataSources`. -/
def resolve (bits : Types) : (i : Nat) → List Fn → List DS → Option (List RFn × List DS)
  | _, [], ss => some ([], ss)
  | i, f :: fs, ss =>
    match resolveSigs bits f.states false i 0 0 f.ins ss with
    | none => none
    | some (ins, inSize, ss) =>
      match resolveSigs bits f.states true i 0 0 f.outs ss with
      | none => none
      | some (outs, outSize, ss) =>
        match resolve bits (i + 1) fs ss with
        | none => none
        | some (rs, ss) => some (⟨f, ins, inSize, outs, outSize⟩ :: rs, ss)

/-! ## Verification -/

/-- Lines 1373-1382: the tokens of a name are the first ones of another. -/
def prefixOf : Name → Name → Bool
  | [], _ => true
  | _ :: _, [] => false
  | a :: n, b :: m => if a = b then prefixOf n m else false

/-- A signal of a data source that was verified, with its size. -/
structure VSig where
  sig : DSig
  byteSize : Nat
deriving DecidableEq, Repr

/-- Lines 1322-1469: the signals of a data source; `done` were seen before.  A signal without a type is deleted if others have
its name and more. -/
def verifySigs (bits : Types) : (done : List VSig) → List DSig → Option (List VSig)
  | done, [] => some done
  | done, d :: ds =>
    if d.name = [] then none
    else
      match d.ty.bind bits with
      | none =>
        if (done.map (fun v => v.sig.name) ++ ds.map (fun e => e.name)).any (prefixOf d.name) then
          (if d.ty = none ∨ d.ty = some "" then verifySigs bits done ds else none)
        else none
      | some b =>
        match d.elems with
        | some 0 => none
        | _ =>
          let elems := d.elems.getD 1
          let dims := d.dims.getD (if elems > 1 then 1 else 0)
          verifySigs bits (done ++ [⟨{ d with elems := some elems, dims := some dims }, elems * b % 2 ^ 32 / 8⟩]) ds

/-- Lines 2365-2376 `CheckProducersRanges`. -/
def checkRanges : List (Nat × Nat) → Bool
  | [] => true
  | a :: rs => rs.all (fun b => (decide (a.1 < b.1) && decide (a.2 < b.1)) || (decide (b.1 < a.1) && decide (b.2 < a.1))) &&
      checkRanges rs

/-- Lines 2313-2355: the ranges of the producers, one after the other. -/
def producersRanges (fns : List RFn) : List Use → Option (List (Nat × Nat))
  | [] => some []
  | u :: us =>
    match fns[u.fn]? with
    | none => none
    | some f =>
      match f.outs[u.sig]? with
      | none => none
      | some r =>
        match r.sig.ranges with
        | none => none
        | some rs => (producersRanges fns us).map (rs ++ ·)

/-- Lines 2257-2287: one state of a signal. -/
def verifyState (check timing : Bool) (fns : List RFn) (uses : List Use) (state : String) : Bool :=
  let prods := uses.filter fun u => u.producer && decide (u.state = state)
  if timing then prods.isEmpty
  else if check = true ∧ prods.length > 1 then
    match producersRanges fns prods with
    | none => false
    | some rs => checkRanges rs
  else true

/-- Data sources when all is verified. -/
structure VDS where
  name : String
  sigs : List VSig
deriving DecidableEq, Repr

/-- Lines 1304-1470 and 2218-2291, for one data source. -/
def verifyDS (bits : Types) (check : Bool) (fns : List RFn) (s : DS) : Option VDS :=
  if s.stray then none
  else
    match verifySigs bits [] s.sigs with
    | none => none
    | some vs =>
      if vs.all fun v => v.sig.uses.all fun u => verifyState check s.timing fns v.sig.uses u.state then some ⟨s.name, vs⟩ else none

def verifyAll (bits : Types) (check : Bool) (fns : List RFn) : List DS → Option (List VDS)
  | [] => some []
  | s :: ss =>
    match verifyDS bits check fns s with
    | none => none
    | some v => (verifyAll bits check fns ss).map (v :: ·)

/-- Lines 107-127: from the flattened data bases to the resolved ones.  `check`: `CheckMultipleProducersWrites`. -/
def build (bits : Types) (check : Bool) (fns : List Fn) (dss : List DS) : Option (List RFn × List VDS) :=
  match resolve bits 0 fns dss with
  | none => none
  | some (rs, ss) => (verifyAll bits check rs ss).map fun vs => (rs, vs)

end Verif.AppBuild
