/-!
# Model of the flattening of the signals of a real-time application

`BareMetal/L5GAMs/RealTimeApplicationConfigurationBuilder.cpp`: `FlattenSignal`, `CacheSignalIntrospections` and
`SignalIntrospectionToStructuredData`.

Simplifications.  A node of the configuration is its name, the properties that the code reads and the nodes inside it; the nodes
`MemberAliases` and `Defaults` hold only values (so that `MoveToChild` inside them fails), and are also given as the lists `aliases`
and `defaults` of the properties of the signal.  Types are trees of members (the registry and its cache, which is filled
before).  The property `FullType`, the sizes of the members, `Ranges` and `Samples` (copied as they are) and the cache of the
indexes of signals are not modelled.  Reading a present property with a value of the wrong type is not modelled.  `%d` of an index
is its decimal numeral (indexes below 2^31).
-/
namespace Verif.FlattenSignal

abbrev Name := List Char

/-- The members of a structured type, one after the other: of a basic type, or of a structured type with dimensions. -/
inductive Members
  | nil
  | basic (name type : Name) (elems : Nat) (rest : Members)
  | struct (name : Name) (dims : List Nat) (kids rest : Members)

/-- What the name of a type stands for: `TypeDescriptor::GetTypeDescriptorFromTypeName` (line 693), the registry of types (line
3416). -/
inductive Kind
  | basic
  | struct (ms : Members)
  | unknown

/-- The properties of a signal (lines 679, 696, 718-730, 781-789, 812, 878, 3479, 3494). -/
structure Props where
  type : Option Name := none
  source : Option Name := none
  alias : Option Name := none
  dims : Option Nat := none
  elems : Option Nat := none
  freq : Option Nat := none
  sync : Option Name := none
  trig : Option Nat := none
  trigSignal : Option Name := none
  default : Option Nat := none
  aliases : List (Name × Name) := []
  defaults : List (Name × Nat) := []
deriving DecidableEq, Repr

/-- The nodes of a node of the configuration, one after the other. -/
inductive Nodes
  | nil
  | node (name : Name) (props : Props) (kids rest : Nodes)

/-- A signal of the result: the node `Signals.<number>` and its properties. -/
structure Sig where
  number : Nat
  name : Name
  type : Option Name
  elems : Option Nat
  source : Option Name
  alias : Option Name
  freq : Option Nat
  trig : Option Nat
  default : Option Nat
deriving DecidableEq, Repr

/-- The application: whether the signals are those of the functions, the default data source (empty: none), the known data sources
(`dataSourcesIndexesCache`), the types. -/
structure Cfg where
  functions : Bool
  defaultSource : Name
  known : Name → Bool
  types : Name → Kind

/-- `Printf("%s[%d]", …)`. -/
def index (i : Nat) : Name := '[' :: (Nat.toDigits 10 i ++ [']'])

/-- Lines 3279-3287. -/
def atLeastOne (n : Nat) : Nat := if n = 0 then 1 else n

/-- Lines 3290-3308: what follows the name of a structured member, for each of its elements; `none`: line 3268. -/
def suffixes : List Nat → Option (List Name)
  | [] => some [[]]
  | [r] => some (if atLeastOne r > 1 then (List.range (atLeastOne r)).map index else [[]])
  | [r, c] => some ((List.range (atLeastOne r)).flatMap fun i => (List.range (atLeastOne c)).map fun j => index i ++ index j)
  | [r, c, z] => some ((List.range (atLeastOne r)).flatMap fun i => (List.range (atLeastOne c)).flatMap fun j =>
      (List.range (atLeastOne z)).map fun k => index i ++ (index j ++ index k))
  | _ => none

/-- One after the other, until one fails. -/
def concatM {α : Type} : List (Option (List α)) → Option (List α)
  | [] => some []
  | none :: _ => none
  | some a :: r => (concatM r).map (a ++ ·)

/-- A basic member of a structured type: qualified name, type, number of elements (lines 3335-3361). -/
structure Leaf where
  name : Name
  type : Name
  elems : Nat
deriving DecidableEq, Repr

/-- Lines 3252-3256: the name of a member. -/
def dotted (pre n : Name) : Name := if pre = [] then n else pre ++ '.' :: n

/-- Lines 3219-3373 `CacheSignalIntrospections`. -/
def cache : Members → Name → Option (List Leaf)
  | .nil, _ => some []
  | .basic n t e r, pre => (cache r pre).map (⟨dotted pre n, t, e⟩ :: ·)
  | .struct n d k r, pre =>
    match suffixes d with
    | none => none
    | some ss =>
      match concatM (ss.map fun s => cache k (dotted pre n ++ s)) with
      | none => none
      | some a => (cache r pre).map (a ++ ·)

/-- The tokens of a name (`GetToken` with "."; names have no empty tokens). -/
def tokens : Name → List Name
  | [] => [[]]
  | c :: r => if c = '.' then [] :: tokens r else
      match tokens r with
      | [] => [[c]]
      | t :: ts => (c :: t) :: ts

/-- Lines 3541-3555: the tokens of the name from the first that differs from that of the key. -/
def unmatched : List Name → List Name → List Name
  | [], _ => []
  | t :: ts, [] => t :: ts
  | t :: ts, k :: ks => if t = k then unmatched ts ks else t :: ts

/-- Lines 3504-3556: the alias that the node `MemberAliases` gives to a member. -/
def memberAlias (as : List (Name × Name)) (full : Name) : Option Name :=
  match as.find? fun a => a.1.isPrefixOf full with
  | none => none
  | some (k, a) => some ((unmatched (tokens full) (tokens k)).foldl (fun x t => x ++ '.' :: t) a)

/-- Lines 3468-3477, 3504-3556, 3641-3645: the alias of a member. -/
def aliasOf (p : Props) (alias full member : Name) : Option Name :=
  match memberAlias p.aliases full with
  | some a => some a
  | none => if alias = [] then none else some (alias ++ '.' :: member)

/-- Lines 3416-3684 `SignalIntrospectionToStructuredData`: the members of one element of a structured signal. -/
def members (cfg : Cfg) (p : Props) (src : Option Name) (el alias : Name) : List Leaf → Nat → List Sig
  | [], _ => []
  | l :: ls, num =>
    let full := el ++ '.' :: l.name
    ⟨num, full, some l.type, some l.elems, if cfg.functions then src else none,
      if cfg.functions then aliasOf p alias full l.name else none,
      if cfg.functions && (p.sync == some full) then p.freq else none,
      if cfg.functions && (p.trigSignal == some full) then p.trig else none,
      (p.defaults.find? fun d => d.1 == full).map (·.2)⟩ :: members cfg p src el alias ls (num + 1)

/-- Lines 753-780: the name of an element, and its alias. -/
def elementName (dims elems : Nat) (n : Name) (nr : Nat) : Name :=
  if dims ≤ 1 then (if elems > 1 then n ++ index nr else n)
  else if dims = 2 then n ++ index nr ++ index 0
  else n ++ index nr ++ index 0 ++ index 0

/-- Lines 785-856: one element of a structured signal.  The result of the check of `SyncSignal` (lines 790, 803) is overwritten by
that of the check of `TriggerSignal` (lines 813, 826).  The data source must be known (line 3450, if the type has members). -/
def element (cfg : Cfg) (p : Props) (src : Option Name) (ls : List Leaf) (el alias : Name) (num : Nat) : Option (List Sig) :=
  let out := members cfg p src el alias ls num
  let ret := match p.trigSignal with
    | some _ => p.trig.isSome
    | none => p.trig.isNone
  let syncSet := !(p.sync.isSome && p.freq.isSome)
  let trigSet := !(p.trigSignal.isSome && p.trig.isSome)
  if ret = false then none
  else if (ls.isEmpty || (match src with | some s => s.isEmpty || cfg.known s | none => true)) = false then none
  else if (syncSet || out.any fun s => s.freq.isSome) = false then none
  else if (trigSet || out.any fun s => s.trig.isSome) = false then none
  else some out

/-- Lines 749-859: the elements of a structured signal. -/
def elements (cfg : Cfg) (p : Props) (src : Option Name) (ls : List Leaf) (full alias : Name) (dims elems : Nat) :
    List Nat → Nat → Option (List Sig)
  | [], _ => some []
  | nr :: r, num =>
    match element cfg p src ls (elementName dims elems full nr) (if alias = [] then [] else elementName dims elems alias nr) num with
    | none => none
    | some a => (elements cfg p src ls full alias dims elems r (num + a.length)).map (a ++ ·)

/-- Lines 715-863: a structured signal. -/
def structured (cfg : Cfg) (p : Props) (src : Option Name) (ms : Members) (full : Name) (num : Nat) : Option (List Sig) :=
  let d := p.dims.getD 0
  let e := p.elems.getD 1
  if d > 3 then none
  else match cache ms [] with
  | none => none
  | some ls => elements cfg p src ls full (p.alias.getD []) (if e > 1 then 1 else d) e (List.range (atLeastOne e)) num

/-- Lines 866-898: a signal of a basic type or without a type. -/
def plain (p : Props) (src : Option Name) (full : Name) (num : Nat) : Sig :=
  ⟨num, full, p.type, p.elems, src, p.alias, p.freq, p.trig, p.default⟩

/-- Lines 676-690: the data source of a signal; `none`: refused. -/
def sourceOf (cfg : Cfg) (p : Props) : Option (Option Name) :=
  if cfg.functions then
    match p.source with
    | some s => some (some s)
    | none => if cfg.defaultSource = [] then none else some (some cfg.defaultSource)
  else some p.source

/-- Lines 635-638. -/
def typeOf (p : Props) : Option Name :=
  match p.type with
  | some t => if t = [] then none else some t
  | none => none

/-- Lines 673-900: a signal; `p` is where the cursor is. -/
def signal (cfg : Cfg) (type : Option Name) (p : Props) (full : Name) (num : Nat) : Option (List Sig) :=
  match sourceOf cfg p with
  | none => none
  | some src =>
    match type with
    | none => some [plain p src full num]
    | some t =>
      match cfg.types t with
      | .basic => some [plain p src full num]
      | .struct ms => structured cfg p src ms full num
      | .unknown => none

def keyword (n : Name) : Bool := n == "MemberAliases".toList || n == "Defaults".toList

/-- Lines 641-671: the loop over the nodes of a node without type: whether a node was found, where the cursor is left (`none`: where
it was), the signals.  The cursor moves into a keyword node and stays there, and there `MoveToChild` fails (line 651). -/
def loop (cfg : Cfg) : Nodes → Name → Nat → Option (Bool × Option Props × List Sig)
  | .nil, _, _ => some (false, none, [])
  | .node n p k r, pre, num =>
    if keyword n then some (false, some p, [])
    else
      let full := pre ++ '.' :: n
      let one :=
        match typeOf p with
        | some t => signal cfg (some t) p full num
        | none =>
          match loop cfg k full num with
          | none => none
          | some (found, at_, out) => if found then some out else signal cfg none (at_.getD p) full num
      match one with
      | none => none
      | some a =>
        match loop cfg r pre (num + a.length) with
        | none => none
        | some (_, at_, b) => some (true, at_, a ++ b)

/-- Lines 625-901 `FlattenSignal`. -/
def flattenSignal (cfg : Cfg) (p : Props) (kids : Nodes) (full : Name) (num : Nat) : Option (List Sig) :=
  match typeOf p with
  | some t => signal cfg (some t) p full num
  | none =>
    match loop cfg kids full num with
    | none => none
    | some (found, at_, out) => if found then some out else signal cfg none (at_.getD p) full num

/-- Lines 511-623 `FlattenSignalsDatabase`, the loop over the signals of a function or of a data source; what is called `Locked` is
not a signal (line 562). -/
def flatten (cfg : Cfg) : Nodes → Nat → Option (List Sig)
  | .nil, _ => some []
  | .node n p k r, num =>
    if n = "Locked".toList then flatten cfg r num
    else match flattenSignal cfg p k n num with
    | none => none
    | some a => (flatten cfg r (num + a.length)).map (a ++ ·)

end Verif.FlattenSignal
