import Verif.Model.AppBuild
/-!
# Model of what the data sources are told of the functions

`BareMetal/L5GAMs/RealTimeApplicationConfigurationBuilder.cpp`: the last part of `ResolveFunctionsMemory` (the signals of a function
grouped by data source), `AssignFunctionsMemoryToDataSource`, `AssignBrokersToFunctions` and `AssignBrokersToSignals`.

Simplifications.  The input is the resolved functions of `Model/AppBuild.lean`; the code does both in the same loop, and gives up at
the first failure of either.  Trees are records: the nodes `0`, `1`, … are the places of a list, and the numbers kept in the caches are
numbers.  Names of functions and of data sources are single tokens (a point in them would be a path in the caches).  Frequency and
trigger, which are copied with the other values, are left out.  `GetBrokerName` of the data sources is a function of the data source,
the direction and the values of the signal.
-/
namespace Verif.FnMemory
open Verif.AppBuild

/-- A node `Signals.<n>` of the memory of a function (lines 2711-2745), and its copy in the data source. -/
structure Told where
  name : Name
  alias : Name
  offsets : List (Nat × Nat)
  samples : Nat
  memory : Nat
  broker : Option String
deriving DecidableEq, Repr

/-- A node `Memory.<direction>.<n>` of a function. -/
structure Group where
  ds : String
  byteSize : Nat
  sigs : List Told
deriving DecidableEq, Repr

/-- `functionsMemoryIndexesCache`: function, direction (`true`: outputs) and data source. -/
abbrev GroupCache := List ((String × Bool × String) × Nat)

/-- Lines 2600-2602 and 2719-2745. -/
def told (r : RSig) : Told := ⟨r.sig.name, r.sig.alias.getD r.sig.name, r.offsets, r.samples, r.memory, none⟩

/-- Lines 2703-2755: one more signal in a node that is there. -/
def join (r : RSig) (g : Group) : Group :=
  { g with byteSize := (g.byteSize + r.byteSize * r.samples) % 2 ^ 32, sigs := g.sigs ++ [told r] }

/-- Lines 2668-2755: the node of the data source of the signal, found in the cache or created. -/
def group (fn : String) (out : Bool) (r : RSig) (cache : GroupCache) (gs : List Group) : Option (GroupCache × List Group) :=
  match cache.lookup (fn, out, r.sig.ds) with
  | some k => if k < gs.length then some (cache, gs.modify k (join r)) else none
  | none => some (((fn, out, r.sig.ds), gs.length) :: cache, gs ++ [⟨r.sig.ds, r.byteSize * r.samples % 2 ^ 32, [told r]⟩])

/-- Lines 962-1037 with 1032: the signals of one direction of a function. -/
def groups (fn : String) (out : Bool) : List RSig → GroupCache → List Group → Option (GroupCache × List Group)
  | [], cache, gs => some (cache, gs)
  | r :: rs, cache, gs =>
    match group fn out r cache gs with
    | none => none
    | some (cache, gs) => groups fn out rs cache gs

/-- A node `Functions.<n>.<direction>` of a data source. -/
structure Part where
  byteSize : Nat
  sigs : List Told
deriving DecidableEq, Repr

/-- A node `Functions.<n>` of a data source. -/
structure Entry where
  fn : String
  ins : Option Part
  outs : Option Part
deriving DecidableEq, Repr

/-- A data source: its name and its node `Functions`. -/
structure Source where
  name : String
  entries : List Entry
deriving DecidableEq, Repr

/-- `dataSourcesFunctionIndexesCache`: data source and function. -/
abbrev EntryCache := List ((String × String) × Nat)

/-- `GetBrokerName`; the empty text: no broker. -/
abbrev Brokers := String → Bool → Told → String

/-- Lines 2897-2916 (and 3013-3030). -/
def setBroker (b : Brokers) (ds : String) (out : Bool) (t : Told) : Option Told :=
  if b ds out t = "" then none else some { t with broker := some (b ds out t) }

/-- Lines 2884-2921: the copies of the signals.  `after`: `initialiseAfterInitialisation`. -/
def copySigs (after : Bool) (b : Brokers) (ds : String) (out : Bool) : List Told → Option (List Told)
  | [] => some []
  | t :: ts =>
    match (if after then setBroker b ds out t else some t) with
    | none => none
    | some t => (copySigs after b ds out ts).map (t :: ·)

/-- Lines 2873-2924: the node of a direction gets the signals after those it has, and the size. -/
def extend (p : Part) : Option Part → Option Part
  | none => some p
  | some q => some ⟨p.byteSize, q.sigs ++ p.sigs⟩

/-- Lines 2873-2924. -/
def write (out : Bool) (p : Part) (e : Entry) : Entry :=
  if out then { e with outs := extend p e.outs } else { e with ins := extend p e.ins }

/-- Lines 2840-2871: the node of the function in the data source, found in the cache or created. -/
def tell (fn : String) (out : Bool) (p : Part) (k : Option Nat) (es : List Entry) : Option (List Entry) :=
  match k with
  | some k => if k < es.length then some (es.modify k (write out p)) else none
  | none => some (es ++ [write out p ⟨fn, none, none⟩])

/-- Lines 2806-2821 with `FindDataSourceNumber` (1065-1069): the data source with this name. -/
def inSource (ds : String) (f : List Entry → Option (List Entry)) : List Source → Option (Nat × List Source)
  | [] => none
  | s :: ss =>
    if s.name = ds then (f s.entries).map fun es => (s.entries.length, ⟨s.name, es⟩ :: ss)
    else (inSource ds f ss).map fun r => (r.1, s :: r.2)

/-- Lines 2795-2925: one data source of a function. -/
def assignGroup (after : Bool) (b : Brokers) (fn : String) (out : Bool) (g : Group) (cache : EntryCache) (ss : List Source) :
    Option (EntryCache × List Source) :=
  match copySigs after b g.ds out g.sigs with
  | none => none
  | some sigs =>
    match inSource g.ds (tell fn out ⟨g.byteSize, sigs⟩ (cache.lookup (g.ds, fn))) ss with
    | none => none
    | some (n, ss) => some (if (cache.lookup (g.ds, fn)).isSome then cache else ((g.ds, fn), n) :: cache, ss)

/-- Lines 2774-2932 `AssignFunctionsMemoryToDataSource`, when the node `Memory` is there. -/
def assignGroups (after : Bool) (b : Brokers) (fn : String) (out : Bool) : List Group → EntryCache → List Source →
    Option (EntryCache × List Source)
  | [], cache, ss => some (cache, ss)
  | g :: gs, cache, ss =>
    match assignGroup after b fn out g cache ss with
    | none => none
    | some (cache, ss) => assignGroups after b fn out gs cache ss

/-- Lines 909-1063 `ResolveDataSources`, one function.  Without signals there is no node `Memory`, and line 2783 fails. -/
def assignFn (after : Bool) (b : Brokers) (R : RFn) (c : GroupCache) (d : EntryCache) (ss : List Source) :
    Option (GroupCache × EntryCache × List Source) :=
  match groups R.fn.name false R.ins c [] with
  | none => none
  | some (c, gi) =>
    match groups R.fn.name true R.outs c [] with
    | none => none
    | some (c, go) =>
      if gi = [] ∧ go = [] then none
      else
        match assignGroups after b R.fn.name false gi d ss with
        | none => none
        | some (d, ss) => (assignGroups after b R.fn.name true go d ss).map fun r => (c, r.1, r.2)

/-- Lines 909-1063, all the functions. -/
def assignFns (after : Bool) (b : Brokers) : List RFn → GroupCache → EntryCache → List Source → Option (List Source)
  | [], _, _, ss => some ss
  | R :: Rs, c, d, ss =>
    match assignFn after b R c d ss with
    | none => none
    | some (c, d, ss) => assignFns after b Rs c d ss

/-- Lines 909-1063: nothing is in the caches nor in the nodes `Functions` at the beginning. -/
def assign (after : Bool) (b : Brokers) (names : List String) (app : List RFn) : Option (List Source) :=
  assignFns after b app [] [] (names.map fun n => ⟨n, []⟩)

/-- Lines 2997-3040 `AssignBrokersToSignals`: the value `ByteSize` of the node is passed over. -/
def latePart (b : Brokers) (ds : String) (out : Bool) : Option Part → Option (Option Part)
  | none => some none
  | some p => (copySigs true b ds out p.sigs).map fun l => some ⟨p.byteSize, l⟩

/-- Lines 2971-2990: the functions of a data source. -/
def lateEntries (b : Brokers) (ds : String) : List Entry → Option (List Entry)
  | [] => some []
  | e :: es =>
    match latePart b ds false e.ins with
    | none => none
    | some i =>
      match latePart b ds true e.outs with
      | none => none
      | some o => (lateEntries b ds es).map (⟨e.fn, i, o⟩ :: ·)

/-- Lines 2939-2995 `AssignBrokersToFunctions`. -/
def lateBrokers (b : Brokers) : List Source → Option (List Source)
  | [] => some []
  | s :: ss =>
    match lateEntries b s.name s.entries with
    | none => none
    | some es => (lateBrokers b ss).map (⟨s.name, es⟩ :: ·)

end Verif.FnMemory
